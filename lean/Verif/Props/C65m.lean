import Verif.Props.C65j
import Verif.Props.C51
/-! C65: uses of what is defined, definitions, conditionals. -/
namespace L2J.Psr
open Cmds Defn L2J.Spec
open Pre (keyval_none)

/-! ## The use of a command -/

/-- The text `code` with its parameters (those with the fewest hashes) replaced by their arguments. -/
def _root_.L2J.Spec.Filled (code : Str) (args : List Str) (out : Str) : Prop :=
  ∃ ts, Reads code ts ∧ (((args = [] ∨ ∀ k ds, Spec.Tok.param k ds ∉ ts) ∧ out = code) ∨
    ∃ k, args ≠ [] ∧ MinHashes ts k ∧ (∀ ds, Spec.Tok.param k ds ∈ ts → 1 ≤ digitsVal ds) ∧ out = ts.flatMap (substTok (args.map some) k))

theorem filled_eq {code out out' : Str} {args : List Str} (h : Filled code args out) (h' : Substitutes code args out') : out' = out := by
  obtain ⟨ts, hr, h⟩ := h
  obtain ⟨ts', hr', h1, h2⟩ := h'
  obtain rfl := C08_reading_unique hr hr'
  rcases h with ⟨ha, rfl⟩ | ⟨k, ha, hk, hz, rfl⟩
  · exact h1 ha
  · exact h2 k ha hk hz

/-- The definitions `h` say that `\n arg`, followed by `rest`, is replaced by `out`. -/
inductive _root_.L2J.Spec.Expands (h : List (Def × Bool)) : Str → Str → Str → Str → Prop
  /-- A command without arguments. -/
  | word (n content rest : Str) : n ∉ whitelisted → (n ≠ [] ∧ ∀ c ∈ n, isLetter c = true) → StandsFor h n content → (∀ c, rest.head? = some c → isNameChar c = false) →
      Expands h n [] rest content
  /-- A `\newcommand` with arguments. -/
  | args (n content : Str) (num : Nat) (defaults : List Str) (before after : List (Def × Bool)) (u : CmdUse) (out : Str) : n ∉ whitelisted → (n ≠ [] ∧ ∀ c ∈ n, isLetter c = true) →
      h = before ++ (.newcommand n content num defaults false, false) :: after → (∀ x ∈ before, Meant x.1 n → x.1.place = ⟨false, n⟩) → (∀ x ∈ after, ¬ Meant x.1 n) →
      ¬ Contains content ('\\' :: n) → ¬ "\\@ifstar".toList <+: strip content → defaults.length ≤ num → u.Fits num defaults → Filled content (u.arguments num defaults) out → out ≠ '\\' :: n →
      Expands h n (wrapAll '[' ']' u.opts ++ wrapAll '{' '}' u.reqs) u.rest out
  /-- A `\def` with parameters. -/
  | def_ (n content p0 : Str) (l : List (Str × Str × Str)) (before after : List (Def × Bool)) (rest out : Str) : n ∉ whitelisted → (n ≠ [] ∧ ∀ c ∈ n, isLetter c = true) →
      h = before ++ (.def_ n (p0 ++ paramText 1 l) content false none, false) :: after → (∀ x ∈ before, Meant x.1 n → x.1.place = ⟨false, n⟩) → (∀ x ∈ after, ¬ Meant x.1 n) →
      l ≠ [] → '#' ∉ p0 → (∀ e ∈ l, '#' ∉ e.2.2 ∧ ∀ c ∈ e.2.2.head?, isDigit c = false) → (∀ e ∈ l, (∀ x ∈ e.1, isSpace x = true) ∧ Shallow e.2.1) →
      Filled content (l.map (·.2.1)) out → out ≠ '\\' :: (n ++ (p0 ++ defArgs l)) → (∀ c ∈ (p0 ++ defArgs l ++ rest).head?, isNameChar c = false) → Expands h n (p0 ++ defArgs l) rest out
  /-- A switch, a counter, a length. -/
  | idle (n rest : Str) : Idle h n → Ends n rest → (∀ c ∈ n.head?, c ∉ "$%&_#{}~".toList) → (∀ c ∈ rest.head?, isWord c = false) → Expands h n [] rest []
  /-- A pair of delimiters. -/
  | pair (n l r star ws x rest : Str) : n ∉ whitelisted → (n ≠ [] ∧ ∀ c ∈ n, isLetter c = true) → Pairs h n l r → star = [] ∨ star = ['*'] → Blank ws → Wrappable '{' '}' x →
      ¬ '\\' :: n <+: l ++ (x ++ r) → Expands h n (star ++ (ws ++ '{' :: (x ++ ['}']))) rest (l ++ x ++ r)

theorem plain_letters {n : Str} (h : ∀ c ∈ n, isLetter c = true) : ∀ c ∈ n.head?, c ∉ "$%&_#{}~".toList := by
  intro c hc hm
  have := h c (List.mem_of_mem_head? hc)
  have key : ∀ d ∈ "$%&_#{}~".toList, isLetter d = false := by decide
  rw [key c hm] at this; cases this

theorem expands_value {cfg : Cmds.Cfg} (hl : Letters cfg) {h : List (Def × Bool)} {p : Proc} (hreg : registerAll cfg Proc.empty h = some (.ok p)) (hpl : ∀ x ∈ h, PlainDef x.1)
    {n arg rest out : Str} (he : Expands h n arg rest out) :
    p.handle cfg ('\\' :: (n ++ (arg ++ rest))) = (out, (n ++ arg).length + 1) ∧ Ends n (arg ++ rest) ∧ ∀ c ∈ n.head?, c ∉ "$%&_#{}~".toList := by
  cases he with
  | word _ _ hw hn hs hr =>
    have := Pre.use_value hl hreg hpl hs hw hn hr
    exact ⟨by rw [List.append_nil]; exact this, .inl ⟨hn.1, hn.2, hr⟩, plain_letters hn.2⟩
  | args content num defaults before after u _ hw hn hh hsame hafter hself hstar hd hu hf hne =>
    subst hh
    obtain ⟨p0, h0, _⟩ := registerAll_append _ _ _ _ hreg
    have hstar' : startsWith (strip content) "\\@ifstar".toList = false := by
      unfold startsWith
      cases hh : "\\@ifstar".toList.isPrefixOf (strip content) with
      | false => rfl
      | true => exact absurd (List.isPrefixOf_iff_prefix.1 hh) hstar
    obtain ⟨o, h1, h2⟩ := C51_use_partial cfg hl before after n content num defaults hd hpl p0 p h0 hreg hw (Pre.search_contains hself) hstar' hsame hafter hn u hu
    obtain rfl := filled_eq hf h1
    have := h2 hne
    have e : wrapAll '[' ']' u.opts ++ wrapAll '{' '}' u.reqs ++ u.rest = u.tail := by unfold CmdUse.tail; rw [List.append_assoc]
    rw [e, this]
    refine ⟨?_, .inl ⟨hn.1, hn.2, tail_head u num defaults hu⟩, plain_letters hn.2⟩
    congr 1
    simp; omega
  | def_ content p0 l before after _ _ hw hn hh hsame hafter hl0 hp0 hps hargs hf hne hend =>
    subst hh
    obtain ⟨q0, h0, _⟩ := registerAll_append _ _ _ _ hreg
    obtain ⟨o, h1, h2⟩ := C51_def_partial cfg hl before after n content p0 l hl0 hp0 hps hargs hpl q0 p h0 hreg hw hsame hafter hn rest
    obtain rfl := filled_eq hf h1
    rw [h2 hne]
    refine ⟨?_, .inl ⟨hn.1, hn.2, hend⟩, plain_letters hn.2⟩
    congr 1
    simp; omega
  | idle _ hi hends hp hr =>
    have := Pre.idle_value hl hreg hpl hi hends hr
    exact ⟨by rw [List.append_nil]; exact this, hends, hp⟩
  | pair l r star ws x _ hw hn hs hst hws hx hne =>
    have := Pre.pair_value hl hreg hpl hs hw hn hst hws hx hne rest
    have e : star ++ (ws ++ '{' :: (x ++ ['}'])) ++ rest = star ++ (ws ++ '{' :: (x ++ '}' :: rest)) := by simp
    rw [e, this]
    refine ⟨rfl, .inl ⟨hn.1, hn.2, ?_⟩, plain_letters hn.2⟩
    intro c hc
    rcases hst with rfl | rfl
    · cases ws with
      | nil => simp at hc; subst hc; decide
      | cons a ws => simp at hc; subst hc; exact space_name a (hws a (by simp))
    · simp at hc; subst hc; decide

/-- A use is replaced by what it stands for. -/
theorem Acts.use {V X} {cfg : Cfg V X} (hl : Letters cfg.cmds) {h} {st : St V X} (k : Known cfg h st) (toks : List Tok) (space : Bool) {n arg rest out : Str} (he : Expands h n arg rest out)
    (hw : Without effectWords ('\\' :: (n ++ (arg ++ rest)))) : Acts cfg st toks space ('\\' :: (n ++ (arg ++ rest))) st ⟨toks, space, out ++ rest⟩ := by
  obtain ⟨h1, h2, h3⟩ := expands_value hl k.reg k.plain he
  refine ⟨0, fun m _ => ?_⟩
  rw [actAt_word cfg _ m _ st toks space h2 h3, act_early cfg _ m _ st toks space hw, h1]
  rw [if_pos (by simp)]
  simp only
  rw [List.drop_succ_cons, ← List.append_assoc, List.drop_left]

/-! ## What is known -/

/-- What is known at a place in a document: the definitions so far, the environments, theorems and floats, the aliases of citations, the colours, the labels given so far, what labels
are given to at this place, and the number of the next token. -/
structure _root_.L2J.Spec.Doc where
  defs : List (Def × Bool)
  env : EnvT.St
  aliases : Dict Str
  colors : Dict (Str × Str)
  labels : List (Nat × Str)
  cur : Option Nat
  next : Nat

/-- The state of the parser is what the document says. -/
structure Fits {V X} (cfg : Cfg V X) (c : Doc) (st : St V X) : Prop where
  known : Known cfg c.defs st
  env : st.env = c.env
  aliases : st.aliases = c.aliases
  colors : st.colors = c.colors
  labels : st.labels = c.labels
  cur : st.cur = c.cur
  next : st.next = c.next

theorem Fits.move {V X} {cfg : Cfg V X} {c : Doc} {st : St V X} (f : Fits cfg c st) (ls : List (Nat × Str)) (cur : Option Nat) (n : Nat) :
    Fits cfg { c with labels := ls, cur := cur, next := n } { st with labels := ls, cur := cur, next := n } :=
  ⟨⟨f.known.reg, f.known.plain, f.known.ifs⟩, f.env, f.aliases, f.colors, rfl, rfl, rfl⟩

theorem Fits.nextTo {V X} {cfg : Cfg V X} {c : Doc} {st : St V X} (f : Fits cfg c st) (n : Nat) : Fits cfg { c with next := n } { st with next := n } :=
  ⟨⟨f.known.reg, f.known.plain, f.known.ifs⟩, f.env, f.aliases, f.colors, f.labels, f.cur, rfl⟩

theorem Fits.at {V X} {cfg : Cfg V X} {c : Doc} {st : St V X} (f : Fits cfg c st) (i : Option Nat) : Fits cfg { c with cur := i } { st with cur := i } :=
  ⟨⟨f.known.reg, f.known.plain, f.known.ifs⟩, f.env, f.aliases, f.colors, f.labels, rfl, f.next⟩

theorem Fits.labelled {V X} {cfg : Cfg V X} {c : Doc} {st : St V X} (f : Fits cfg c st) (ls : List (Nat × Str)) (n : Nat) :
    Fits cfg { c with labels := ls, next := n } { st with labels := ls, next := n } :=
  ⟨⟨f.known.reg, f.known.plain, f.known.ifs⟩, f.env, f.aliases, f.colors, rfl, f.cur, rfl⟩

theorem Fits.freshed {V X} {cfg : Cfg V X} {c : Doc} {st : St V X} (f : Fits cfg c st) : Fits cfg { c with next := c.next + 1 } st.fresh := by
  have := f.nextTo (c.next + 1)
  unfold St.fresh
  rw [f.next]; exact this

/-! ## Definitions -/

theorem set_twice {β} : ∀ (d : Dict β) (k : Str) (v : β), Dict.set (Dict.set d k v) k v = Dict.set d k v
  | [], k, v => by simp [Dict.set]
  | (k', v') :: d, k, v => by
    by_cases h : k' = k
    · subst h; simp [Dict.set]
    · simp [Dict.set, h, set_twice d k v]

theorem put_twice (p : Proc) (pl : Place) (e : Entry) : (p.put pl e).put pl e = p.put pl e := by
  unfold Proc.put
  cases pl.isLet <;> simp [set_twice]

theorem entry_again {cfg : Cmds.Cfg} (hl : Letters cfg) {h h' : List (Def × Bool)} {p p' : Proc} (hr : registerAll cfg Proc.empty h = some (.ok p)) (hp : ∀ x ∈ h, PlainDef x.1)
    (hr' : registerAll cfg Proc.empty h' = some (.ok p')) (hp' : ∀ x ∈ h', PlainDef x.1) {d : Def} {sty : Bool} (hs : Settled d sty) : entryOf cfg p' d sty = entryOf cfg p d sty := by
  have hx : ∀ c : Str, sty = true ∨ OnlyBuiltin c → p.expand cfg (if sty then [] else c) true false = some (.ok (if sty then [] else c)) ∧
      p'.expand cfg (if sty then [] else c) true false = some (.ok (if sty then [] else c)) := by
    intro c hc
    have ho : OnlyBuiltin (if sty then [] else c) := by
      cases sty with
      | true => exact .nil
      | false => simpa using hc
    exact ⟨C34_expand_partial cfg hl h hp p hr _ ho false, C34_expand_partial cfg hl h' hp' p' hr' _ ho false⟩
  unfold entryOf
  simp only
  split
  · rfl
  · cases d with
    | let_ n c cs => simp only [(hx c hs).1, (hx c hs).2]
    | def_ n params c e cs =>
      cases e with
      | true => simp only [if_true, (hx c hs).1, (hx c hs).2]
      | false => rfl
    | _ => rfl

/-- Entering a definition a second time changes nothing. -/
theorem register_again {cfg : Cmds.Cfg} (hl : Letters cfg) {h : List (Def × Bool)} {p p' : Proc} (hr : registerAll cfg Proc.empty h = some (.ok p)) (hp : ∀ x ∈ h, PlainDef x.1)
    {d : Def} {sty : Bool} (hd : PlainDef d) (hs : Settled d sty) (h1 : register cfg p d sty = some (.ok p')) : register cfg p' d sty = some (.ok p') := by
  have h2 := Pre.registerAll_snoc h _ _ hr h1
  have he := entry_again hl hr hp h2 (fun x hx => by
    rcases List.mem_append.1 hx with hx | hx
    · exact hp x hx
    · simp at hx; rw [hx]; exact hd) hs
  unfold register at h1 ⊢
  rw [he]
  cases hh : entryOf cfg p d sty with
  | none => rw [hh] at h1; cases h1
  | some r =>
    rw [hh] at h1
    cases r with
    | error e => cases h1
    | ok o =>
      cases o with
      | none => rfl
      | some e =>
        injection h1 with h1; injection h1 with h1; subst h1
        simp only
        rw [put_twice]

/-- What is known after a definition. -/
def _root_.L2J.Spec.Doc.learned (c : Doc) (t : Defn.Tok) : Doc :=
  { c with
    defs := c.defs ++ entered t false
    colors := match t with | .color n f v => if n = [] then c.colors else Dict.set c.colors n (f, v) | _ => c.colors
    env := match t with
      | .floatname n title => if n = [] then c.env else { c.env with floats := Dict.set c.env.floats n title }
      | .theorem_ n title _ _ => if n = [] then c.env else { c.env with thms := Dict.set c.env.thms n title }
      | _ => c.env }

theorem registerTok_known {V X} {cfg : Cfg V X} (hl : Letters cfg.cmds) {h} {st : St V X} (k : Known cfg h st) {t : Defn.Tok} {d : Def} (ht : t.registers = some d)
    (hp : ∀ x ∈ entered t false, PlainDef x.1 ∧ Settled x.1 false) : ∃ p, registerTok cfg st t = .ok { st with proc := p } () ∧ registerAll cfg.cmds Proc.empty (h ++ entered t false) = some (.ok p) ∧
      ∀ ifs, registerTok cfg { st with proc := p, ifs := ifs } t = .ok { st with proc := p, ifs := ifs } () := by
  unfold entered at hp ⊢
  unfold registerTok
  simp only [ht] at hp ⊢
  by_cases hb : (d.name.isEmpty || whitelisted.contains d.name) = true
  · rw [if_pos hb, List.append_nil]
    have he : ∀ p, register cfg.cmds p d false = some (.ok p) := by
      intro p; unfold register entryOf; simp only [hb, if_true]
    simp only [he]
    exact ⟨_, rfl, k.reg, fun _ => trivial⟩
  · rw [if_neg hb] at hp ⊢
    obtain ⟨h1, h2⟩ := hp (d, false) (by simp)
    obtain ⟨p', hp'⟩ := Pre.register_ok hl k.reg k.plain h2
    refine ⟨p', by rw [hp'], Pre.registerAll_snoc h _ _ k.reg hp', fun ifs => ?_⟩
    rw [register_again hl k.reg k.plain h1 h2 hp']

/-- The switches after a definition. -/
def newIfs (ifs : List Str) (d : Def) : List Str := match d with | .newif n => n :: ifs | _ => ifs

theorem define_known {V X} {cfg : Cfg V X} (hl : Letters cfg.cmds) {c : Doc} {st : St V X} (f : Fits cfg c st) {t : Defn.Tok}
    (hp : ∀ x ∈ entered t false, PlainDef x.1 ∧ Settled x.1 false) (hi : ∀ n, t = .cmd (.newif n) → n ∉ whitelisted) :
    ∃ st1, ((registerTok cfg st t).bind fun st _ => learn cfg st t) = .ok st1 () ∧ Fits cfg (c.learned t) st1 := by
  have plain : ∀ x ∈ c.defs ++ entered t false, PlainDef x.1 := fun x hx => by
    rcases List.mem_append.1 hx with hx | hx
    · exact f.known.plain x hx
    · exact (hp x hx).1
  cases t with
  | color n g v =>
    refine ⟨_, rfl, ⟨⟨?_, plain, ?_⟩, ?_, ?_, ?_, ?_, ?_, ?_⟩⟩ <;> (cases n <;> simp [Doc.learned, entered, Defn.Tok.registers, f.known.reg, f.known.ifs, f.env, f.aliases, f.colors, f.labels, f.cur, f.next])
  | floatname n g =>
    refine ⟨_, rfl, ⟨⟨?_, plain, ?_⟩, ?_, ?_, ?_, ?_, ?_, ?_⟩⟩ <;> (cases n <;> simp [Doc.learned, entered, Defn.Tok.registers, f.known.reg, f.known.ifs, f.env, f.aliases, f.colors, f.labels, f.cur, f.next])
  | theorem_ n g a b =>
    refine ⟨_, rfl, ⟨⟨?_, plain, ?_⟩, ?_, ?_, ?_, ?_, ?_, ?_⟩⟩ <;> (cases n <;> simp [Doc.learned, entered, Defn.Tok.registers, f.known.reg, f.known.ifs, f.env, f.aliases, f.colors, f.labels, f.cur, f.next])
  | cref n a b =>
    refine ⟨_, rfl, ⟨⟨?_, plain, ?_⟩, ?_, ?_, ?_, ?_, ?_, ?_⟩⟩ <;> simp [Doc.learned, entered, Defn.Tok.registers, f.known.reg, f.known.ifs, f.env, f.aliases, f.colors, f.labels, f.cur, f.next]
  | font n src size =>
    obtain ⟨p, h1, h2, h3⟩ := registerTok_known hl f.known (t := .font n src size) rfl hp
    refine ⟨{ st with proc := p }, ?_, ⟨⟨h2, plain, ?_⟩, f.env, f.aliases, f.colors, f.labels, f.cur, f.next⟩⟩
    · rw [h1]
      show learn cfg { st with proc := p } (.font n src size) = _
      unfold learn
      cases n with
      | nil => rfl
      | cons a n => exact h3 st.ifs
    · show st.ifs = _
      have : entered (.font n src size) false = [] ∨ entered (.font n src size) false = [(.newX n, false)] := by
        unfold entered Defn.Tok.registers
        simp only
        split
        · exact .inl rfl
        · exact .inr rfl
      show _ = ((c.defs ++ entered (.font n src size) false).reverse.filterMap _)
      rcases this with h | h <;> simp [h, f.known.ifs]
  | cmd d =>
    obtain ⟨p, h1, h2, h3⟩ := registerTok_known hl f.known (t := .cmd d) rfl hp
    by_cases hn : d.name.isEmpty = true
    · refine ⟨{ st with proc := p }, ?_, ⟨⟨h2, plain, ?_⟩, f.env, f.aliases, f.colors, f.labels, f.cur, f.next⟩⟩
      · rw [h1]
        show learn cfg { st with proc := p } (.cmd d) = _
        unfold learn
        simp only [hn, if_true]
      · have : entered (.cmd d) false = [] := by unfold entered Defn.Tok.registers; simp [hn]
        show st.ifs = ((c.defs ++ entered (.cmd d) false).reverse.filterMap _)
        rw [this, List.append_nil]; exact f.known.ifs
    · refine ⟨{ st with proc := p, ifs := newIfs st.ifs d }, ?_, ⟨⟨h2, plain, ?_⟩, f.env, f.aliases, f.colors, f.labels, f.cur, f.next⟩⟩
      · rw [h1]
        show learn cfg { st with proc := p } (.cmd d) = _
        unfold learn
        simp only [if_neg hn]
        exact h3 (newIfs st.ifs d)
      · show newIfs st.ifs d = ((c.defs ++ entered (.cmd d) false).reverse.filterMap _)
        have : entered (.cmd d) false = [] ∨ entered (.cmd d) false = [(d, false)] := by
          unfold entered Defn.Tok.registers
          simp only
          split
          · exact .inl rfl
          · exact .inr rfl
        cases d with
        | newif n =>
          have hw := hi n rfl
          have : entered (.cmd (.newif n)) false = [(.newif n, false)] := by
            unfold entered Defn.Tok.registers
            simp only
            rw [if_neg]
            rw [Bool.or_eq_true]
            rintro (h | h)
            · exact hn h
            · exact hw (by simpa [Def.name] using h)
          rw [this]
          simp [f.known.ifs, newIfs]
        | _ => rcases this with h | h <;> simp [h, f.known.ifs, newIfs]

/-! A definition leaves nothing. -/

theorem define_setkeys : ∀ w ∈ defineWords, (!("\\setkeys".toList.isPrefixOf w.toList || w.toList.isPrefixOf "\\setkeys".toList)) = true := by decide +kernel

theorem ends_key {w r : Str} (h : Ends w r) : ¬ "define@key".toList <+: w ++ r := by
  intro hp
  rcases h with ⟨_, hl, hr⟩ | ⟨c, rfl, hc⟩
  · rcases Fmt.prefix_split hp with h | ⟨d, r', h, h2⟩
    · obtain ⟨t, ht⟩ := h
      have := hl '@' (by rw [← ht]; exact List.mem_append_left _ (by decide))
      revert this; decide
    · have hd : isNameChar d = true := by
        have : ∀ c ∈ "define@key".toList, isNameChar c = true := by decide
        exact this d (by rw [h]; simp)
      obtain ⟨t, ht⟩ := h2
      have := hr d (by rw [← ht]; rfl)
      rw [hd] at this; cases this
  · obtain ⟨t, ht⟩ := hp
    have : c = 'd' := by simpa using congrArg List.head? ht.symm
    rw [this] at hc; revert hc; decide

theorem define_keyval {v : String} (hv : v ∈ defineWords) {x w r : Str} (e : '\\' :: (w ++ r) = v.toList ++ x) (hw : Ends w r) (alpha : Char → Bool) (keys : KeyVal.Defs) :
    KeyVal.handle alpha keys ('\\' :: (w ++ r)) = (keys, none, 0) := by
  have hf := define_setkeys v hv
  have h1 : ¬ "\\define@key".toList <+: '\\' :: (w ++ r) := by
    rintro ⟨t, ht⟩
    exact ends_key hw ⟨t, by simpa using ht⟩
  have h2 : ¬ "\\setkeys".toList <+: '\\' :: (w ++ r) := by
    intro hp
    rw [e] at hp
    rw [Bool.not_eq_true', Bool.or_eq_false_iff] at hf
    rcases Fmt.prefix_split hp with h | ⟨d, r, h, _⟩
    · rw [List.isPrefixOf_iff_prefix.2 h] at hf; cases hf.1
    · rw [List.isPrefixOf_iff_prefix.2 ⟨_, h.symm⟩] at hf; cases hf.2
  unfold KeyVal.handle KeyVal.matchKw startsWith
  rw [if_neg (by rw [List.isPrefixOf_iff_prefix]; exact h1), if_neg (by rw [List.isPrefixOf_iff_prefix]; exact h2)]

def startsPlain (w : Str) : Bool := ((w.drop 1).head?.any fun c => !("$%&_#{}~".toList.contains c)) && !("\\csname".toList.isPrefixOf w || w.isPrefixOf "\\csname".toList)

theorem define_plain : ∀ w ∈ defineWords, startsPlain w.toList = true := by decide +kernel

theorem plain_head {v x w r : Str} (hf : startsPlain v = true) (e : '\\' :: (w ++ r) = v ++ x) : (∀ c ∈ w.head?, c ∉ "$%&_#{}~".toList) ∧ ¬ "csname".toList <+: w ++ r := by
  unfold startsPlain at hf
  rw [Bool.and_eq_true, Bool.not_eq_true', Bool.or_eq_false_iff] at hf
  refine ⟨fun c hc => ?_, ?_⟩
  · cases w with
    | nil => cases hc
    | cons a w =>
      obtain rfl : a = c := by simpa using hc
      cases v with
      | nil => simp at hf
      | cons b v =>
        cases v with
        | nil => simp at hf
        | cons d v =>
          have : a = d := by simp at e; exact e.2.1
          subst this
          have := hf.1
          intro hm
          simp [List.contains_iff_mem] at this
          simp at hm
          revert hm; simpa using this
  · rintro ⟨t, ht⟩
    have hp : "\\csname".toList <+: v ++ x := ⟨t, by rw [← e, ← ht]; rfl⟩
    rcases Fmt.prefix_split hp with h | ⟨d, r, h, _⟩
    · rw [List.isPrefixOf_iff_prefix.2 h] at hf; cases hf.2.1
    · rw [List.isPrefixOf_iff_prefix.2 ⟨_, h.symm⟩] at hf; cases hf.2.2

theorem define_head {v : String} (hv : v ∈ defineWords) {x w r : Str} (e : '\\' :: (w ++ r) = v.toList ++ x) : (∀ c ∈ w.head?, c ∉ "$%&_#{}~".toList) ∧ ¬ "csname".toList <+: w ++ r :=
  plain_head (define_plain v hv) e

theorem Acts.define {V X} {cfg : Cfg V X} (hl : Letters cfg.cmds) {c : Doc} {st : St V X} (f : Fits cfg c st) (toks : List Tok) (space : Bool) {w arg rest : Str} {tok : Defn.Tok}
    (hd : Defines ('\\' :: (w ++ arg)) rest tok) (hw : Ends w (arg ++ rest)) (hu : ∀ x ∈ c.defs, ¬ Meant x.1 w)
    (hp : ∀ x ∈ entered tok false, PlainDef x.1 ∧ Settled x.1 false) (hi : ∀ n, tok = .cmd (.newif n) → n ∉ whitelisted) :
    ∃ st1, Fits cfg (c.learned tok) st1 ∧ Acts cfg st toks space ('\\' :: (w ++ (arg ++ rest))) st1 ⟨toks, endsBlank space ('\\' :: (w ++ arg)), rest⟩ := by
  obtain ⟨st1, h1, h2⟩ := define_known hl f hp hi
  refine ⟨st1, h2, 0, fun m _ => ?_⟩
  have hh := Pre.defines_handle hd
  have es : '\\' :: (w ++ arg) ++ rest = '\\' :: (w ++ (arg ++ rest)) := by simp
  obtain ⟨v, hv, x, hx⟩ := Pre.defines_word hd
  have hs := (Pre.define_start hv (x ++ rest)).1
  have ev : '\\' :: (w ++ (arg ++ rest)) = v.toList ++ (x ++ rest) := by rw [← List.append_assoc v.toList, ← hx, es]
  have hk := define_keyval hv ev hw
  rw [actAt_word cfg _ m _ st toks space hw (define_head hv ev).1]
  unfold act
  rw [hk]
  rw [if_neg (by simp)]
  rw [show st.proc.handle cfg.cmds ('\\' :: (w ++ (arg ++ rest))) = ('\\' :: (w ++ (arg ++ rest)), 0) from Pre.user_word (cfg := preCfg cfg) hl f.known.pre hw (define_head hv ev).2 hu]
  rw [if_neg (by simp)]
  unfold actDefine definitions
  rw [es] at hh
  rw [Pre.canHandle_of hh, if_pos rfl, hh]
  have hlen : (0 : Int) < (('\\' :: (w ++ arg)).length : Nat) := by simp only [List.length_cons]; omega
  have key : ∀ e : Int, ((registerTok cfg st tok).bind fun st _ => (learn cfg st tok).bind fun st _ => Res.ok st e) = Res.ok st1 e := by
    intro e
    revert h1
    cases registerTok cfg st tok with
    | ok s u =>
      show learn cfg s tok = _ → (learn cfg s tok).bind _ = _
      intro h; rw [h]; rfl
    | _ => intro h; cases h
  simp only [key]
  show (if (0 : Int) < (('\\' :: (w ++ arg)).length : Nat) then _ else _) = _
  rw [if_pos hlen]
  unfold move
  rw [if_neg (by omega), Int.toNat_natCast, ← es, List.take_left, List.drop_left]

end L2J.Psr
