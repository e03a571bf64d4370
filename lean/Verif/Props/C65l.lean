import Verif.Props.C65k
import Verif.Props.C64l
/-! C65: the parser as a whole. The theorems about documents, a document that is read, and documents that are not read as they should be. -/
namespace L2J.Psr
open Cmds Defn L2J.Spec
open Content (starText)

/-- C65: what a document is read to. Whatever the parser knows: if by the rules of `Spec.Reading` the text (without its comments) is read to `toks`, then `parse` ends, and gives `toks`. -/
theorem C65_document_partial {V X} (cfg : Cfg V X) (ho : SomeOrder cfg.order) (hl : Letters cfg.cmds) (hm : MathReady cfg) (c c' : Doc) (st : St V X) (s : Str) (toks : List Tok) (hf : Fits cfg c st)
    (h : Reading cfg.cmds.conv cfg.nfc c (.text [] false (stripLatexComments s)) c' toks) :
    ∃ st' N, Fits cfg c' st' ∧ ∀ n, N ≤ n → parse cfg n .default st s = .ok st' toks := by
  obtain ⟨st', f, N, h⟩ := reading_sound ho hl hm h st hf
  exact ⟨st', N, f, h⟩

/-- A parser that has read nothing yet. -/
def fresh {V X} (e : Eqn.State V) (x : X) : St V X := ⟨Proc.empty, [], [], e, ⟨[], [], []⟩, [], [], [], none, 0, x⟩

/-- What is known to it. -/
def _root_.L2J.Spec.Doc.empty : Doc := ⟨[], ⟨[], [], []⟩, [], [], [], none, 0⟩

/-- C65: the same for a parser that has read nothing yet; and the labels it has found. -/
theorem C65_fresh {V X} (cfg : Cfg V X) (ho : SomeOrder cfg.order) (hl : Letters cfg.cmds) (hm : MathReady cfg) (e : Eqn.State V) (x : X) (c' : Doc) (s : Str) (toks : List Tok)
    (h : Reading cfg.cmds.conv cfg.nfc Doc.empty (.text [] false (stripLatexComments s)) c' toks) :
    ∃ st' N, st'.labels = c'.labels ∧ ∀ n, N ≤ n → parse cfg n .default (fresh e x) s = .ok st' toks := by
  obtain ⟨st', N, f, h⟩ := C65_document_partial cfg ho hl hm Doc.empty c' (fresh e x) s toks ⟨⟨rfl, by simp [Doc.empty], rfl⟩, rfl, rfl, rfl, rfl, rfl, rfl⟩ h
  exact ⟨st', N, f.labels, h⟩

/-- C65: a document is read to one list of tokens. -/
theorem C65_unique {V X} (cfg : Cfg V X) (ho : SomeOrder cfg.order) (hl : Letters cfg.cmds) (hm : MathReady cfg) (c c1 c2 : Doc) (st : St V X) (s : Str) (t1 t2 : List Tok) (hf : Fits cfg c st)
    (h1 : Reading cfg.cmds.conv cfg.nfc c (.text [] false (stripLatexComments s)) c1 t1) (h2 : Reading cfg.cmds.conv cfg.nfc c (.text [] false (stripLatexComments s)) c2 t2) : t1 = t2 := by
  obtain ⟨_, N, _, a1⟩ := C65_document_partial cfg ho hl hm c c1 st s t1 hf h1
  obtain ⟨_, M, _, a2⟩ := C65_document_partial cfg ho hl hm c c2 st s t2 hf h2
  have := (a1 (N + M) (by omega)).symm.trans (a2 (N + M) (by omega))
  injection this

/-- A configuration to try things out. -/
def exCfg : Cfg Unit Unit where
  cmds := cfg0
  fmt x _ := x
  order := formulaEnvs.map String.toList
  eqFmt := Fmt.mathFormatter fun x _ => x
  boxes := ⟨.none, fun _ => false, fun _ => (.none, 0)⟩
  nfc x := x
  package _ st toks _ := .ok st (toks, 1)
  table _ st toks _ := .ok st (toks, 1)
  style _ st toks _ := .ok st (toks, 1)
  bibliography _ st s := .ok st (.str s)
  bibFile _ st s := .ok st (.mk 0 s .absent [] none)
  input _ st _ := .ok st []

theorem exOrder : SomeOrder exCfg.order := fun n => by
  show n ∈ formulaEnvs.map String.toList ↔ _
  rw [List.mem_map]
  constructor
  · rintro ⟨x, hx, rfl⟩; exact ⟨x, hx, rfl⟩
  · rintro ⟨x, hx, rfl⟩; exact ⟨x, hx, rfl⟩

theorem exMath : MathReady exCfg := ⟨rfl, fun _ _ => rfl⟩

mutual
/-- A token as a text. -/
def Tok.show : Tok → Str
  | .mk i t v fs st => natStr i ++ ':' :: (t ++ v.show ++ showFields fs ++ (match st with | none => [] | some l => '!' :: joinWith [','] l))
def Val.show : Val → Str
  | .absent => []
  | .null => "=None".toList
  | .str s => "=".toList ++ s
  | .strs l => "=".toList ++ joinWith [','] l
  | .toks l => '[' :: (showToks l ++ [']'])
  | .lists l => '(' :: (showLists l ++ [')'])
  | .flag b => if b then "=yes".toList else "=no".toList
  | .num n => '=' :: natStr n
  | .eqn _ => "=math".toList
def showToks : List Tok → Str
  | [] => []
  | t :: ts => '<' :: (t.show ++ '>' :: showToks ts)
def showLists : List (List Tok) → Str
  | [] => []
  | l :: ls => showToks l ++ ';' :: showLists ls
def showFields : List (Str × Val) → Str
  | [] => []
  | (k, v) :: fs => ' ' :: (k ++ v.show ++ showFields fs)
end

/-- What is read, as a text, and the labels. -/
def read (s : String) : Option (Str × List (Nat × Str)) :=
  match parse exCfg 60 .default (fresh ⟨Boxes.empty, []⟩ ()) s.toList with
  | .ok st l => some (showToks l, st.labels)
  | _ => none

/-! A document that is read. -/

theorem chunk_of {x : Str} (h : ∀ c ∈ x, c ∉ "\\$%{".toList) : Chunk x := by
  induction x with
  | nil => exact .nil
  | cons c x ih => exact .char c (h c (by simp)) (ih fun d hd => h d (by simp [hd]))

theorem unmet_of (h : List (Def × Bool)) {x : Str} (hx : '\\' ∉ x) : Unmet h x := by
  rintro a b rfl
  simp at hx

theorem unmet_word {h : List (Def × Bool)} {w rest : Str} (he : Ends w rest) (hs : '\\' ∉ w ++ rest) (hu : ∀ x ∈ h, ¬ Meant x.1 w) : Unmet h ('\\' :: (w ++ rest)) := by
  intro a b e
  cases a with
  | nil => obtain rfl : w ++ rest = b := by simpa using e
           exact ⟨w, rest, rfl, he, hu⟩
  | cons x a =>
    obtain ⟨_, e⟩ : '\\' = x ∧ w ++ rest = a ++ '\\' :: b := by simpa using e
    rw [e] at hs; simp at hs

theorem noDelim_of {kw name t : Str} (h : ¬ Contains t kw) : NoDelim kw name t := by
  rintro u d v rfl ⟨ws, _, rfl⟩
  exact h ⟨u, ws ++ '{' :: (name ++ ['}']) ++ v, by simp⟩

theorem strange_of {h : List (Def × Bool)} {w rest : Str} (hp : passes w = true) (hn : unhandled w = true) (hl : clearOf lastHeads w = true) (hr : NameEnds rest)
    (ho : ∀ c ∈ rest.head?, oddLetter c = false) (he : ¬ Contains rest ("\\end".toList ++ w)) (hu : ∀ x ∈ h, ¬ Meant x.1 w) : Strange h w rest :=
  ⟨passes_spec hp hr hu, unhandled_spec hn hr ho he, clear_spec hl hr⟩

theorem adds_new {space : Bool} {t : Tok} {l : List Tok} (h : t.type ∉ ["group", "environment", "list"].map String.toList) (hn : t.type ≠ "text".toList ∨ ∀ u ∈ l.getLast?, ¬ ∃ a, TextTok u a) : Adds space t l (l ++ [t]) := by
  have hk : ¬ (t.type = "group".toList ∨ t.type = "environment".toList ∨ t.type = "list".toList) := by
    rintro (e | e | e) <;> (rw [e] at h; exact h (by decide))
  refine .new _ (fun e => absurd e hk) (fun e => hk e.1) (fun u hu ha => ?_)
  rintro ⟨b, hb, _⟩
  rcases hn with hn | hn
  · exact hn hb
  · exact hn u hu ha

theorem adds_sized {space : Bool} {t : Tok} {l : List Tok} {n : Nat} (h : t.type ≠ "text".toList) (hn : t.content.len = some (n + 1)) : Adds space t l (l ++ [t]) :=
  .new _ (fun _ e => by rw [hn] at e; cases e) (fun e => by have := e.2; rw [hn] at this; simp at this) (fun _ _ _ ⟨_, hb, _⟩ => h hb)

theorem notText {t u : Tok} {l : List Tok} (h : u.type ≠ "text".toList) (ht : t ∈ (l ++ [u]).getLast?) : ¬ ∃ a, TextTok t a := by
  rintro ⟨a, hb, _⟩
  simp at ht
  exact h (ht ▸ hb)

/-- Words without a backslash that come first, or after something that is not a text. -/
theorem Reading.words {conv nfc} {c c' : Doc} {toks toks' : List Tok} {space : Bool} (x rest : Str) (a z : Char) (h : ∀ c ∈ x, c ∉ "\\$%{".toList) (ha : x.head? = some a) (hs : isSpace a = false)
    (hz : x.getLast? = some z) (hf : Follows x rest) (hne : conv x ≠ []) (hnew : ∀ u ∈ toks.getLast?, ¬ ∃ a, TextTok u a)
    (hr : Reading conv nfc { c with next := c.next + 1 } (.text (toks ++ [.mk c.next "text".toList (.str (conv x)) [] none]) (isSpace z) rest) c' toks') : Reading conv nfc c (.text toks space (x ++ rest)) c' toks' :=
  .text x rest a z _ (chunk_of h) ha hs hz hf (unmet_of _ fun hc => h _ hc (by decide)) (.text _ _ _ hne (adds_new (by show "text".toList ∉ _; decide) (.inr hnew))) hr

/-- Words at the end. -/
theorem Reading.lastWords {conv nfc} {c : Doc} {toks : List Tok} {space : Bool} (x : Str) (a z : Char) (h : ∀ c ∈ x, c ∉ "\\$%{".toList) (ha : x.head? = some a) (hs : isSpace a = false)
    (hz : x.getLast? = some z) (hne : conv x ≠ []) (hnew : ∀ u ∈ toks.getLast?, ¬ ∃ a, TextTok u a) :
    Reading conv nfc c (.text toks space x) { c with next := c.next + 1 } (toks ++ [.mk c.next "text".toList (.str (conv x)) [] none]) := by
  have := Reading.words (conv := conv) (nfc := nfc) (c := c) (toks := toks) (space := space) x [] a z h ha hs hz ⟨fun e => by
      have := List.mem_of_getLast? e
      exact h _ this (by decide), .inl rfl⟩ hne hnew (.done _ _ _ [] (by simp [Blank]))
  rwa [List.append_nil] at this

theorem stops_word {c : Char} {t : Str} (h : c ∉ "$%&_#{}~".toList) : Stops ('\\' :: c :: t) := ⟨t, .inr (.inl ⟨c, h, rfl⟩)⟩

/-- The document. -/
def exDoc : Str :=
  "\\section{Intro} \\label{s1}Hello % there\n\\foo{x} y\\footnote{A note} \\begin{theorem}[Main] See \\ref{s1}.\\end{theorem}\\begin{itemize}\\item one \\item two\\end{itemize}".toList

def exTitle : Tok := .mk 0 "section".toList .absent [(titleKey, .toks [.mk 1 "text".toList (.str "Intro".toList) [] none]), ("level".toList, .num 1), ("numbered".toList, .flag true)] none
def exFoo : Tok := .mk 3 "command".toList (.str "{x}".toList) [("command".toList, .str "\\foo".toList)] none
def exText (n : Nat) (s : String) : Tok := .mk n "text".toList (.str s.toList) [] none
def exNote : Tok := .mk 5 "footnote".toList (.toks [exText 6 "A note"]) [] none
def exTheorem : Tok := .mk 7 "math_env".toList (.toks [exText 8 "See ", .mk 9 "ref".toList (.strs ["s1".toList]) [] none, exText 10 "."])
  [("name".toList, .str "theorem".toList), ("numbered".toList, .flag true), (titleKey, .toks [exText 11 "Main"])] none
def exList : Tok := .mk 12 "list".toList (.toks [.mk 13 "item".toList (.toks [exText 14 "one"]) [] none, .mk 15 "item".toList (.toks [exText 16 "two"]) [] none])
  [("name".toList, .str "itemize".toList)] none

def exTheoremInner : EnvInner := ⟨[], some "Main".toList, [], " See \\ref{s1}.".toList⟩
theorem itemText_plain {t : Str} (h : '\\' ∉ t) : ItemText t := by
  rintro u v rfl
  have hv : ∀ x : Str, ¬ '\\' :: x <+: v := by
    rintro x ⟨y, rfl⟩
    simp at h
  exact ⟨hv _, hv _, fun ⟨y, e, _⟩ => hv "item".toList ⟨y, e.symm⟩⟩

def exItem1 : ListItem := ⟨[' '], none, [], [], "one ".toList⟩
def exItem2 : ListItem := ⟨[' '], none, [], [], "two".toList⟩
def exListInner : EnvInner := ⟨[], none, [], "\\item one \\item two".toList⟩

/-- What is known in it. -/
def exAt (labels : List (Nat × Str)) (cur : Option Nat) (next : Nat) : Doc := ⟨[], ⟨[], [], []⟩, [], [], labels, cur, next⟩

def exLabels : List (Nat × Str) := [(0, "s1".toList)]

theorem ex_item {id next : Nat} {cur : Option Nat} {toks : List Tok} (x : String) (a z : Char) (h : ∀ c ∈ x.toList, c ∉ "\\$%{".toList) (ha : x.toList.head? = some a) (hs : isSpace a = false)
    (hz : x.toList.getLast? = some z) (hc : stripLatexComments x.toList = x.toList) :
    Reading _root_.id _root_.id (exAt exLabels cur next) (.token true (listed id ⟨none, x.toList⟩) toks) (exAt exLabels cur (next + 1)) (toks ++ [.mk id "item".toList (.toks [exText next x]) [] none]) := by
  have hx : x.toList ≠ [] := by intro e; rw [e] at ha; cases ha
  refine .body id "item".toList x.toList [] none toks (by decide) ⟨by decide, by decide⟩ hx (c1 := exAt exLabels (some id) (next + 1)) (l := [exText next x]) ?_
    (.untitled _ _ (by simp [Tok.fields]) (adds_new (by show "item".toList ∉ _; decide) (.inl (by show "item".toList ≠ _; decide))))
  rw [hc]
  exact Reading.lastWords (conv := _root_.id) (c := exAt exLabels (some id) next) x.toList a z h ha hs hz (by simpa using hx) (by simp)

/-- It is read so, and the label goes to the section. (The next one would go to the footnote.) -/
theorem ex_reading : Reading id id Doc.empty (.text [] false (stripLatexComments exDoc)) (exAt exLabels (some 5) 17) [exTitle, exText 2 "Hello\n", exFoo, exText 4 "y", exNote, exTheorem, exList] := by
  have hs : stripLatexComments exDoc = '\\' :: ((Heading.section 0).word ++ ((starText false ++ ([] ++ '{' :: ("Intro".toList ++ ['}']))) ++ ([' '] ++ ("\\label".toList ++ ([] ++ '{' :: ("s1".toList ++ '}' ::
    ("Hello\n".toList ++ ('\\' :: ("foo".toList ++ ([] ++ ([] ++ '{' :: ("x".toList ++ '}' :: ([' '] ++ ("y".toList ++ ('\\' :: ("footnote".toList ++ ((starText false ++ (bracketed none ++ ([] ++ '{' :: ("A note".toList ++ ['}'])))) ++
    ([' '] ++ ("\\begin{theorem}".toList ++ (exTheoremInner.render ++ ("\\end{theorem}".toList ++ ("\\begin{itemize}".toList ++ (exListInner.render ++ ("\\end{itemize}".toList ++ [])))))))))))))))))))))))) := by
    decide +kernel
  rw [hs]
  refine .says (c1 := exAt [] (some 0) 2) (toks1 := [exTitle]) _ _ _ _ (.heading (.section 0) false [] "Intro".toList (by decide) (by simp [Blank]) (by decide +kernel)) (by simp [Doc.empty])
    (.heading 0 "section".toList .absent "Intro".toList [("level".toList, .num 1), ("numbered".toList, .flag true)] [] (.inl rfl) (by decide +kernel)
      (Reading.lastWords (conv := id) (c := exAt [] (some 0) 1) "Intro".toList 'I' 'o' (by decide) rfl (by decide) rfl (by decide) (by simp))) ?_
  refine .blank [' '] _ (by simp [Blank]; decide) (by simp) ?_
  refine .label [] "s1".toList _ exLabels 2 (by simp [Blank]) (by decide +kernel) (by decide) (by simp [exAt]) (by decide +kernel) (.here _ 0 _) ?_
  refine Reading.words (conv := id) (c := exAt exLabels (some 0) 2) "Hello\n".toList _ 'H' '\n' (by decide) rfl (by decide) rfl ⟨by decide, .inr (.inl ⟨stops_word (by decide), by simp⟩)⟩ (by decide) ?_ ?_
  · exact fun u hu => notText (u := exTitle) (l := []) (by show "section".toList ≠ _; decide) hu
  refine .arg (toks1 := [exTitle, exText 2 "Hello\n", exFoo]) "foo".toList [] [] "x".toList _ exFoo (.inl rfl) (by simp [Blank]) (by decide +kernel) (strange_of (by decide +kernel) (by decide +kernel) (by decide +kernel) ?_ ?_ ?_ (by simp [exAt])) ?_ ?_
    ?_ ?_
  · intro c hc; cases hc; decide
  · intro c hc; cases hc; decide
  · decide +kernel
  · exact unmet_word (w := "foo".toList) (rest := "{x}".toList) (.inl ⟨by decide, by decide, by decide⟩) (by decide) (by simp [exAt])
  · exact .arg _ (by simp)
  · exact adds_new (l := [exTitle, exText 2 "Hello\n"]) (by decide) (.inl (by decide))
  refine .blank [' '] _ (by simp [Blank]; decide) (by simp) ?_
  refine Reading.words (conv := id) (c := exAt exLabels (some 0) 4) "y".toList _ 'y' 'y' (by decide) rfl (by decide) rfl ⟨by decide, .inr (.inl ⟨stops_word (by decide), by simp⟩)⟩ (by decide) ?_ ?_
  · exact fun u hu => notText (u := exFoo) (l := [exTitle, exText 2 "Hello\n"]) (by decide) hu
  refine .says (c1 := exAt exLabels (some 5) 7) (toks1 := [exTitle, exText 2 "Hello\n", exFoo, exText 4 "y", exNote]) _ _ _ _ (.footnote false none [] "A note".toList (by simp) (by simp [Blank]) (by decide +kernel)) (by simp [exAt])
    (.note 5 "footnote".toList "A note".toList [] [exTitle, exText 2 "Hello\n", exFoo, exText 4 "y"] (.inl rfl)
      (Reading.lastWords (conv := id) (c := exAt exLabels (some 5) 6) "A note".toList 'A' 'e' (by decide) rfl (by decide) rfl (by decide) (by simp))) ?_
  refine .blank [' '] _ (by simp [Blank]; decide) (by simp) ?_
  refine .env (c1 := exAt exLabels (some 5) 12) (toks1 := [exTitle, exText 2 "Hello\n", exFoo, exText 4 "y", exNote, exTheorem]) ⟨"theorem", "math_env", .unstarred, 0⟩ "theorem".toList _ _ _ exTheoremInner
    (by decide +kernel) (by unfold Plainly; decide +kernel) (by simp [exAt]) rfl (.inr (.inl ⟨by decide +kernel, by decide +kernel⟩))
    ⟨by decide +kernel, (fun t ht => by cases ht; exact EnvT.wrappable_plain _ _ _ (by decide +kernel) (by decide +kernel)), (fun e he => by cases he), Nat.le_refl 0, fun h => absurd h (by decide), fun h => by cases h⟩
    (.plain _ (noDelim_of (by decide +kernel)) (noDelim_of (by decide +kernel))) ⟨[], by simp, by decide +kernel⟩ ⟨[], by simp, by decide +kernel⟩ ?_ ?_
  · refine .body 7 "math_env".toList " See \\ref{s1}.".toList _ none _ (by decide) ⟨by decide, by decide⟩ (by decide) (c1 := exAt exLabels (some 7) 11)
      (l := [exText 8 "See ", .mk 9 "ref".toList (.strs ["s1".toList]) [] none, exText 10 "."]) ?_ ?_
    · rw [show stripLatexComments " See \\ref{s1}.".toList = [' '] ++ ("See ".toList ++ '\\' :: ("ref".toList ++ ((starText false ++ ([] ++ '{' :: ("s1".toList ++ ['}']))) ++ ".".toList))) by decide +kernel]
      refine .blank [' '] _ (by simp [Blank]; decide) (by simp) ?_
      refine Reading.words (conv := id) (c := exAt exLabels (some 7) 8) "See ".toList _ 'S' ' ' (by decide) rfl (by decide) rfl ⟨by decide, .inr (.inl ⟨stops_word (by decide), by simp⟩)⟩ (by decide) (by simp) ?_
      refine .says (c1 := exAt exLabels (some 7) 10) (toks1 := [exText 8 "See ", .mk 9 "ref".toList (.strs ["s1".toList]) [] none]) _ _ _ _ (.ref "ref".toList false [] "s1".toList (by decide) (by simp [Blank]) (by decide +kernel))
        (by simp [exAt]) (.ref (conv := id) (c := exAt exLabels (some 7) 10) 9 ["s1".toList] [] [exText 8 "See "] (fun x hx => unmet_of _ (by rw [List.mem_singleton.1 hx]; decide)) (by simp)) ?_
      exact Reading.lastWords (conv := id) (c := exAt exLabels (some 7) 10) ".".toList '.' '.' (by decide) rfl (by decide) rfl (by decide)
        (fun u hu => notText (u := .mk 9 "ref".toList (.strs ["s1".toList]) [] none) (l := [exText 8 "See "]) (by decide) hu)
    · refine .titled (conv := id) (c := exAt exLabels (some 5) 11) 7 "math_env".toList _ "Main".toList [("name".toList, .str "theorem".toList), ("numbered".toList, .flag true)] [] none _ (by decide +kernel) ?_
        (adds_new (t := exTheorem) (l := [exTitle, exText 2 "Hello\n", exFoo, exText 4 "y", exNote]) (by decide) (.inl (by decide)))
      exact Reading.lastWords (conv := id) (c := exAt exLabels (some 5) 11) "Main".toList 'M' 'n' (by decide) rfl (by decide) rfl (by decide) (by simp)
  refine .env (c1 := exAt exLabels (some 5) 17) (toks1 := [exTitle, exText 2 "Hello\n", exFoo, exText 4 "y", exNote, exTheorem, exList]) ⟨"itemize", "list", .never, 0⟩ "itemize".toList _ _ _ exListInner
    (by decide +kernel) (by unfold Plainly; decide +kernel) (by simp [exAt]) rfl (.inl ⟨by decide +kernel, by decide +kernel⟩)
    ⟨by decide +kernel, (fun t ht => by cases ht), (fun e he => by cases he), Nat.zero_le _, (by decide +kernel), (by decide +kernel)⟩
    (.plain _ (noDelim_of (by decide +kernel)) (noDelim_of (by decide +kernel))) ⟨[], by simp, by decide +kernel⟩ ⟨[], by simp, by decide +kernel⟩ ?_ (.done _ _ _ [] (by simp [Blank]))
  refine .body 12 "list".toList "\\item one \\item two".toList _ none _ (by decide) ⟨by decide, by decide⟩ (by decide) (c1 := exAt exLabels (some 12) 17)
      (l := [.mk 13 "item".toList (.toks [exText 14 "one"]) [] none, .mk 15 "item".toList (.toks [exText 16 "two"]) [] none]) ?_
      (.untitled _ _ (by decide +kernel) (adds_sized (t := exList) (l := [exTitle, exText 2 "Hello\n", exFoo, exText 4 "y", exNote, exTheorem]) (n := 1) (by decide) rfl))
  rw [show stripLatexComments "\\item one \\item two".toList = exItem1.render ++ (exItem2.render ++ []) by decide +kernel]
  refine .item (c1 := exAt exLabels (some 12) 15) exItem1 _ ⟨none, "one".toList⟩ ' ' ?_ (.inr (by decide +kernel)) (EnvT.noPairs_of (by decide +kernel)) (by intro c hc; cases hc; decide) (by intro c hc; cases hc; decide) (by simp [exAt]) (by decide +kernel) (by decide +kernel)
    (ex_item "one" 'o' 'e' (by decide) rfl (by decide) rfl (by decide +kernel)) ?_
  · exact ⟨by decide, by simp [exItem1], by simp [exItem1], itemText_plain (by decide), by decide, by unfold MayFollow; decide, by decide⟩
  refine .item (c1 := exAt exLabels (some 12) 17) exItem2 _ ⟨none, "two".toList⟩ 'o' ?_ (.inl rfl) (EnvT.noPairs_of (by decide +kernel)) (by intro c hc; cases hc; decide) (by intro c hc; cases hc; decide) (by simp [exAt]) (by decide +kernel) (by decide +kernel)
    (ex_item "two" 't' 'o' (by decide) rfl (by decide) rfl (by decide +kernel)) (.done _ _ _ [] (by simp [Blank]))
  exact ⟨by decide, by simp [exItem2], by simp [exItem2], itemText_plain (by decide), by decide, by unfold MayFollow; decide, by decide⟩

/-- The theorem about it. -/
example : ∃ st' N, st'.labels = exLabels ∧ ∀ n, N ≤ n → parse exCfg n .default (fresh ⟨Boxes.empty, []⟩ ()) exDoc = .ok st' [exTitle, exText 2 "Hello\n", exFoo, exText 4 "y", exNote, exTheorem, exList] :=
  C65_fresh exCfg exOrder cfg0_letters exMath _ _ _ _ _ ex_reading

/-! What does not hold. -/

/-- What a text is read to by a parser that has read nothing yet, and the labels. -/
def Gives (s : String) (labels : List (Nat × Str)) (toks : List Tok) : Prop :=
  ∃ st' N, st'.labels = labels ∧ ∀ n, N ≤ n → parse exCfg n .default (fresh ⟨Boxes.empty, []⟩ ()) s.toList = .ok st' toks

theorem gives_of {s : String} {cur : Option Nat} {next : Nat} {labels : List (Nat × Str)} {toks : List Tok} (hs : stripLatexComments s.toList = s.toList)
    (h : Reading id id (exAt [] none 0) (.text [] false s.toList) (exAt labels cur next) toks) : Gives s labels toks :=
  C65_fresh exCfg exOrder cfg0_letters exMath ⟨Boxes.empty, []⟩ () (exAt labels cur next) s.toList toks (by rw [hs]; exact h)

/-- C65: a command that is not known and whose brace is not closed makes the parser raise, whatever comes before. -/
theorem C65_violated_unclosed {V X} (cfg : Cfg V X) (ho : SomeOrder cfg.order) (hl : Letters cfg.cmds) (c : Doc) (st : St V X) (hf : Fits cfg c st) (toks : List Tok) (space : Bool) (w ws x : Str) (hws : Blank ws)
    (hx : Balanced x '{' '}') (hs : Strange c.defs w (ws ++ '{' :: x)) (n : Nat) : loop cfg (n + 1) .default st toks space ('\\' :: (w ++ (ws ++ '{' :: x))) = .raised := by
  have hh := unknown_head (rest := ws ++ '{' :: x) hs.handlers.letters.1 hs.handlers.letters.2.1 (.inl rfl)
  rw [List.append_nil] at hh
  have hu : unknown cfg st toks ('\\' :: (w ++ (ws ++ '{' :: x))) = some .raised := by
    unfold unknown
    rw [unknown_arg_eats hh hws]
    have et : Match.text ⟨[], '\\' :: (w ++ (ws ++ '{' :: x)), w.length + ws.length + 2, []⟩ = ('\\' :: (w ++ ws)) ++ ['{'] := by
      unfold Match.text
      rw [show '\\' :: (w ++ (ws ++ '{' :: x)) = (('\\' :: (w ++ ws)) ++ ['{']) ++ x by simp]
      exact take_ok _ _ (by simp; omega)
    have hends : endsWith (('\\' :: (w ++ ws)) ++ ['{']) ['{'] = true := by unfold endsWith; rw [List.isSuffixOf_iff_suffix]; exact ⟨_, rfl⟩
    have ed : ('\\' :: (w ++ (ws ++ '{' :: x))).drop (w.length + ws.length + 2 - 1) = '{' :: x := by
      rw [show '\\' :: (w ++ (ws ++ '{' :: x)) = ('\\' :: (w ++ ws)) ++ '{' :: x by simp]
      exact drop_ok _ _ (by simp)
    simp only [et, hends, if_true, Match.stop, List.length_nil, Nat.zero_add, ed, Legacy.extract_open x hx]
  have hrem : remaining .default st toks ('\\' :: (w ++ (ws ++ '{' :: x))) = none := by
    obtain ⟨h1, h2, _⟩ := hs.handlers.letters
    have hlast := hs.last
    cases w with
    | nil => exact absurd rfl h1
    | cons c w => exact remaining_none _ st toks (h2 c (by simp)) hlast
  unfold loop
  rw [show ('\\' :: (w ++ (ws ++ '{' :: x))).dropWhile isSpace = '\\' :: (w ++ (ws ++ '{' :: x)) from rfl]
  simp only
  rw [actAt_passed hl _ _ _ hf.known toks _ hs.passed]
  unfold actHandlers
  rw [handlers_none cfg ho _ _ st toks hs.handlers, orElse_none, hrem, orElse_none, show Opts.default.unknown = true from rfl, if_pos rfl, hu]
  rfl

/-- Such a command. -/
example (n : Nat) : loop exCfg (n + 1) .default (fresh ⟨Boxes.empty, []⟩ ()) [] false "\\foo{bar".toList = .raised :=
  C65_violated_unclosed exCfg exOrder cfg0_letters Doc.empty _ ⟨⟨rfl, by simp [Doc.empty], rfl⟩, rfl, rfl, rfl, rfl, rfl, rfl⟩ [] false "foo".toList [] "bar".toList (by simp [Blank]) (by decide +kernel)
    (strange_of (by decide +kernel) (by decide +kernel) (by decide +kernel) (by intro c hc; cases hc; decide) (by intro c hc; cases hc; decide) (by decide +kernel) (by simp [Doc.empty])) n

/-- C65: the blank before a group is lost, so that two words become one. -/
theorem C65_violated_group_blank : read "Hello {world}" = some ("<0:text=Helloworld>".toList, []) := by decide +kernel

/-- C65: braces behind a word are kept in the text. -/
theorem C65_violated_braces : read "foo{bar}" = some ("<0:text=foo{bar}>".toList, []) := by decide +kernel

/-- C65: a label after a footnote is given to the footnote, not to the section. -/
theorem C65_violated_label_footnote : Gives "\\section{A}\\footnote{C}\\label{d}" [(2, "d".toList)]
    [.mk 0 "section".toList .absent [(titleKey, .toks [exText 1 "A"]), ("level".toList, .num 1), ("numbered".toList, .flag true)] none, .mk 2 "footnote".toList (.toks [exText 3 "C"]) [] none] := by
  refine gives_of (cur := (some 2)) (next := 4) (by decide +kernel) ?_
  rw [show "\\section{A}\\footnote{C}\\label{d}".toList = '\\' :: ((Heading.section 0).word ++ ((starText false ++ ([] ++ '{' :: ("A".toList ++ ['}']))) ++ ('\\' :: ("footnote".toList ++ ((starText false ++ (bracketed none ++ ([] ++ '{' :: ("C".toList ++ ['}'])))) ++
    ("\\label".toList ++ ([] ++ '{' :: ("d".toList ++ '}' :: []))))))))  by decide +kernel]
  refine .says (c1 := exAt [] (some 0) 2) _ _ _ _ (.heading (.section 0) false [] "A".toList (by decide) (by simp [Blank]) (by decide +kernel)) (by simp [exAt])
    (.heading 0 "section".toList .absent "A".toList [("level".toList, .num 1), ("numbered".toList, .flag true)] [] (.inl rfl) (by decide +kernel)
      (Reading.lastWords (conv := id) (c := exAt [] (some 0) 1) "A".toList 'A' 'A' (by decide) rfl (by decide) rfl (by decide) (by simp))) ?_
  refine .says (c1 := exAt [] (some 2) 4) _ _ _ _ (.footnote false none [] "C".toList (by simp) (by simp [Blank]) (by decide +kernel)) (by simp [exAt])
    (.note 2 "footnote".toList "C".toList [] _ (.inl rfl) (Reading.lastWords (conv := id) (c := exAt [] (some 2) 3) "C".toList 'C' 'C' (by decide) rfl (by decide) rfl (by decide) (by simp))) ?_
  exact .label [] "d".toList _ [(2, "d".toList)] 4 (by simp [Blank]) (by decide +kernel) (by decide) (by simp [exAt]) (by decide +kernel) (.here _ 2 _) (.done _ _ _ [] (by simp [Blank]))

/-- C65: a label in a group is lost: it is given to a token (number 1) that is joined with the text before it. -/
theorem C65_violated_label_group : Gives "a {b\\label{l}}" [(1, "l".toList)] [exText 0 "ab"] := by
  refine gives_of (cur := none) (next := 2) (by decide +kernel) ?_
  rw [show "a {b\\label{l}}".toList = "a".toList ++ ([' '] ++ '{' :: ("b\\label{l}".toList ++ '}' :: [])) by decide +kernel]
  refine Reading.words (conv := id) (c := exAt [] none 0) "a".toList _ 'a' 'a' (by decide) rfl (by decide) rfl ⟨by decide, .inr (.inl ⟨⟨_, .inr (.inr (.inr (.inl ⟨' ', by decide, rfl⟩)))⟩, by simp⟩)⟩ (by decide) (by simp) ?_
  refine .blank [' '] _ (by simp [Blank]; decide) (by simp) ?_
  refine .group (c1 := exAt [(1, "l".toList)] none 2) (l := [exText 1 "b"]) (toks1 := [exText 0 "ab"]) "b\\label{l}".toList [] (by decide +kernel) ?_ (.cons (.join [] (exText 0 "a") "a".toList "b".toList ⟨rfl, rfl, rfl⟩ ⟨rfl, rfl, rfl⟩) (.nil _)) (.done _ _ _ [] (by simp [Blank]))
  rw [show stripLatexComments "b\\label{l}".toList = "b".toList ++ ("\\label".toList ++ ([] ++ '{' :: ("l".toList ++ '}' :: []))) by decide +kernel]
  refine Reading.words (conv := id) (c := exAt [] none 1) "b".toList _ 'b' 'b' (by decide) rfl (by decide) rfl ⟨by decide, .inr (.inl ⟨stops_word (by decide), by simp⟩)⟩ (by decide) (by simp) ?_
  exact .label [] "l".toList _ [(1, "l".toList)] 2 (by simp [Blank]) (by decide +kernel) (by decide) (by simp [exAt]) (by decide +kernel) (.last _ _ (exText 1 "b") rfl) (.done _ _ _ [] (by simp [Blank]))

/-- C65: the distance after `\\*` is read as text. -/
theorem C65_violated_break : Gives "\\\\*[2pt]b" [] [exText 0 "\n*[2pt]b"] := by
  refine gives_of (cur := none) (next := 2) (by decide +kernel) ?_
  refine .break (toks1 := [exText 0 "\n"]) [] "*[2pt]b".toList 1 (by simp [exAt]) (.none _ ?_) (by intro c hc; cases hc; decide) (.text _ _ _ (by simp) (adds_new (l := []) (t := exText 0 "\n") (by decide) (.inr (by simp)))) ?_
  · rintro ⟨ws, t, hws, e⟩
    cases ws with
    | nil => simp at e
    | cons a ws => simp at e; have := hws a (by simp); rw [← e.1] at this; revert this; decide
  · rw [← List.append_nil "*[2pt]b".toList]
    exact .text "*[2pt]b".toList [] '*' 'b' 2 (chunk_of (by decide)) rfl (by decide) rfl ⟨by decide, .inl rfl⟩ (unmet_of _ (by decide))
      (.text _ _ _ (by simp) (.join [] (exText 0 "\n") "\n".toList "*[2pt]b".toList ⟨rfl, rfl, rfl⟩ ⟨rfl, rfl, rfl⟩)) (.done _ _ _ [] (by simp [Blank]))

end L2J.Psr
