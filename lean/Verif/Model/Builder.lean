import Verif.Model.Token
/- Model of latex2json/structure/builder.py. An exception is `none`. -/
namespace L2J

/-- builder.py:122-130 `reset_numbering`: the counters. `s1 s2 s3` is `section_numbers = {1:.., 2:.., 3:..}`. -/
structure Num where
  s1 : Nat := 0
  s2 : Nat := 0
  s3 : Nat := 0
  math : Nat := 0
  eq : Nat := 0
  tab : Nat := 0
  fig : Nat := 0
  alg : Nat := 0
deriving DecidableEq, Repr

/-- builder.py:145-147: `for l in range(level + 1, 4): section_numbers[l] = 0`. -/
def resetLower (n : Num) (level : Nat) : Num :=
  { n with
    s1 := if level + 1 ≤ 1 then 0 else n.s1
    s2 := if level + 1 ≤ 2 then 0 else n.s2
    s3 := if level + 1 ≤ 3 then 0 else n.s3 }

/-- builder.py:152-162: `".".join([first_num] + [str(section_numbers[l]) for l in range(2, level+1)])`
for a level that has a counter. `chr(64 + n)` is `Char.ofNat`, exact below the surrogate range. -/
def sectionNumberStr (n : Num) (level : Nat) (inAppendix : Bool) : Str :=
  let first := if inAppendix then [Char.ofNat (64 + n.s1)] else natStr n.s1
  let second := if 2 ≤ level then '.' :: natStr n.s2 else []
  let third := if 3 ≤ level then '.' :: natStr n.s3 else []
  first ++ second ++ third

/-- builder.py:135-162 `_update_section_numbering(token, reset_lower_levels=True, in_appendix)`.
`none`: `KeyError` from `self.section_numbers[level]` when the level has no counter. -/
def updateSection (n : Num) (a : Attrs) (inAppendix : Bool) : Option (Num × Attrs) :=
  if a.numbered = some false then some (n, a)
  else
    let level := a.level.getD 1
    let n := resetLower n level
    let n? : Option Num :=
      if level = 1 then some { n with s1 := n.s1 + 1 }
      else if level = 2 then some { n with s2 := n.s2 + 1 }
      else if level = 3 then some { n with s3 := n.s3 + 1 }
      else none
    match n? with
    | none => none
    | some n => some (n, { a with numbering := some (sectionNumberStr n level inAppendix) })

/-- builder.py:164-184, 322-333 `_check_update_numbering` and the five counter updates. -/
def checkUpdateNumbering (n : Num) (a : Attrs) : Num × Attrs :=
  if a.numbered = some true then
    if a.type = .equation then
      ({ n with eq := n.eq + 1 }, { a with numbering := some (natStr (n.eq + 1)) })
    else if a.type = .algorithm then
      ({ n with alg := n.alg + 1 }, { a with numbering := some (natStr (n.alg + 1)) })
    else if a.type = .math_env then
      ({ n with math := n.math + 1 },
        { a with numbering := some (natStr n.s1 ++ '.' :: natStr (n.math + 1)) })
    else if a.type = .table then
      ({ n with tab := n.tab + 1 }, { a with numbering := some (natStr (n.tab + 1)) })
    else if a.type = .figure then
      ({ n with fig := n.fig + 1 }, { a with numbering := some (natStr (n.fig + 1)) })
    else (n, a)
  else (n, a)

/-- A Python reference to a token placed in the tree, or to a `content` list: the child indices leading
to it from `organized`. Lists are only ever appended to, so indices stay valid. -/
abbrev Path := List Nat

/-- `<content list at p>.append(x)`; `[]` is the list `organized` itself. -/
def appendAt : Path → Item → List Item → List Item
  | [], x, l => l ++ [x]
  | i :: p, x, l => l.modify i fun
      | .tok a t c => .tok a t (appendAt p x c)
      | it => it

/-- `len(<content list at p>)`. -/
def lenAt : Path → List Item → Nat
  | [], l => l.length
  | i :: p, l =>
    match l[i]? with
    | some (.tok _ _ c) => lenAt p c
    | _ => 0

/-- An entry of `section_stack` / `paragraph_stack`: the token (by its place in the tree) and its level. -/
structure Ref where
  path : Path
  level : Option Nat
deriving DecidableEq, Repr

/-- Local variables of `_recursive_organize` (builder.py:335-339) plus the builder's counters. Stacks
have their top first. -/
structure Org where
  out : List Item := []
  secs : List Ref := []
  pars : List Ref := []
  root : Path := []
  inApp : Bool
  num : Num

/-- builder.py:341-346 `get_current_target`. -/
def Org.target (st : Org) : Path :=
  match st.pars with
  | r :: _ => r.path
  | [] =>
    match st.secs with
    | r :: _ => r.path
    | [] => st.root

/-- builder.py:308-309: `while stack and stack[-1]["level"] >= token["level"]: stack.pop()`.
`none`: `KeyError` for a missing level. -/
def popStack (level : Option Nat) : List Ref → Option (List Ref)
  | [] => some []
  | r :: rs =>
    match r.level, level with
    | some a, some b => if a ≥ b then popStack level rs else some (r :: rs)
    | _, _ => none

/-- builder.py:312-317: the list the token is appended to. -/
def stackTarget (root : Path) (stack parents : List Ref) : Path :=
  match parents with
  | r :: _ => r.path
  | [] =>
    match stack with
    | r :: _ => r.path
    | [] => root

/-- builder.py:305-320 `_manage_stack(token, stack, organized=root, parent_stack)`: the token enters the
tree with an emptied `content`; returns the tree and the new stack. -/
def manageStack (out : List Item) (root : Path) (stack parents : List Ref) (a : Attrs) (title : List Item) :
    Option (List Item × List Ref) :=
  match popStack a.level stack with
  | none => none
  | some stack =>
    let p := stackTarget root stack parents
    let tok := Item.tok { a with text := none, hasList := true } title []
    some (appendAt p tok out, ⟨p ++ [lenAt p out], a.level⟩ :: stack)

/-- builder.py:348-408: one iteration of the loop of `_recursive_organize` at list depth `d`. `rec` is the
recursive call on the token's content (`in_appendix`, `list_depth`, counters). -/
def stepOrg (it : Item) (d : Nat) (rec : Bool → Nat → Num → Option (List Item × Num)) (st : Org) : Option Org :=
  match it with
  | .raw s => some { st with out := appendAt st.target (.raw s) st.out }
  | .lst l => some { st with out := appendAt st.target (.lst l) st.out }
  | .tok a title _ =>
    if a.type = .appendix then
      match rec true d { st.num with s1 := 0, s2 := 0, s3 := 0 } with
      | none => none
      | some (c, n) =>
        some { out := st.out ++ [.tok { a with text := none, hasList := true } title c]
               secs := [], pars := [], root := [st.out.length], inApp := true, num := n }
    else
      let (n, a) := checkUpdateNumbering st.num a
      let a := if a.type = .list then { a with depth := some (d + 1) } else a
      match rec st.inApp (if a.type = .list then d + 1 else d) n with
      | none => none
      | some (c, n) =>
        if a.type = .bibliography then
          some { st with out := st.out ++ [.tok a title c], secs := [], pars := [], num := n }
        else if a.type = .section then
          match updateSection n a st.inApp with
          | none => none
          | some (n, a) =>
            let n := if a.level = some 1 then { n with math := 0 } else n
            match manageStack st.out st.root st.secs [] a title with
            | none => none
            | some (out, secs) => some { st with out := out, secs := secs, pars := [], num := n }
        else if a.type = .paragraph then
          match manageStack st.out st.root st.pars st.secs a title with
          | none => none
          | some (out, pars) => some { st with out := out, pars := pars, num := n }
        else
          some { st with out := appendAt st.target (.tok a title c) st.out, num := n }

mutual
/-- The recursive call `_recursive_organize(token["content"], in_appendix, list_depth)`. -/
def orgItem : Item → Bool → Nat → Num → Option (List Item × Num)
  | .tok _ _ c, inApp, d, n => (orgLoop c d { inApp := inApp, num := n }).map fun st => (st.out, st.num)
  | .raw _, _, _, n => some ([], n)
  | .lst _, _, _, n => some ([], n)
/-- builder.py:335-410 `_recursive_organize`: the loop over the tokens. -/
def orgLoop : List Item → Nat → Org → Option Org
  | [], _, st => some st
  | it :: rest, d, st =>
    match stepOrg it d (fun inApp d n => orgItem it inApp d n) st with
    | none => none
    | some st => orgLoop rest d st
end

/-- builder.py:335, 424 `_recursive_organize(tokens)`: returns `organized`. -/
def organize (tokens : List Item) (n : Num) : Option (List Item × Num) :=
  (orgLoop tokens 0 { inApp := false, num := n }).map fun st => (st.out, st.num)

/-- builder.py:28. -/
def openingPunct : List Char := ['(', '[', '{', '\'', '"']
/-- builder.py:29. -/
def closingPunct : List Char := ['.', ',', '!', '?', ':', ';', ')', ']', '}']

/-- builder.py:45-71 `should_add_space(current, previous)` for two text tokens (for which
`is_inline_token(previous)` holds), given their contents. -/
def shouldAddSpace (cur prev : Str) : Bool :=
  let noSpace := !(startsWith cur [' ']) && !(closingPunct.any fun m => startsWith cur [m])
  if noSpace then !(endsWith prev [' ']) && !(openingPunct.any fun m => endsWith prev [m]) else noSpace

/-- Is the item a text token? -/
def Item.isText : Item → Bool
  | .tok a _ _ => decide (a.type = .text)
  | _ => false

/-- builder.py:206-234 `_concat_text_with_same_styles`: `cur` is `current_text_token`. -/
def concatText (cur : Option (Attrs × List Item × List Item)) : List Item → List Item
  | [] => match cur with
    | some (a, t, c) => [.tok a t c]
    | none => []
  | .tok b t c :: rest =>
    if b.type = .text then
      match cur with
      | none => concatText (some (b, t, c)) rest
      | some (a, t0, c0) =>
        if a.styles = b.styles then
          let prev := a.text.getD []
          let next := b.text.getD []
          let glued := if shouldAddSpace next prev then ' ' :: next else next
          concatText (some ({ a with text := some (prev ++ glued) }, t0, c0)) rest
        else .tok a t0 c0 :: concatText (some (b, t, c)) rest
    else
      match cur with
      | some (a, t0, c0) => .tok a t0 c0 :: .tok b t c :: concatText none rest
      | none => .tok b t c :: concatText none rest
  | .raw s :: rest =>
    match cur with
    | some (a, t0, c0) => .tok a t0 c0 :: .raw s :: concatText none rest
    | none => .raw s :: concatText none rest
  | .lst l :: rest =>
    match cur with
    | some (a, t0, c0) => .tok a t0 c0 :: .lst l :: concatText none rest
    | none => .lst l :: concatText none rest

mutual
/-- builder.py:266-301: one token in `recursive_process`. Rows of a tabular are processed without
concatenation; `merge_proof_environments` is False (builder.py:114). -/
def procItem : Item → Item
  | .raw s => .raw s
  | .lst l => .lst (concatText none (procItems l))
  | .tok a t c =>
    .tok a (concatText none (procItems t))
      (if a.type = .tabular then procRows c else concatText none (procItems c))
def procItems : List Item → List Item
  | [] => []
  | x :: xs => procItem x :: procItems xs
/-- A row: `recursive_process(row, should_concat=False)`. Rows are lists (parse_tabular); anything else is
left alone. -/
def procRow : Item → Item
  | .lst r => .lst (procItems r)
  | x => x
def procRows : List Item → List Item
  | [] => []
  | x :: xs => procRow x :: procRows xs
end

/-- builder.py:265-303 `_process_tokens`. -/
def processTokens (tokens : List Item) : List Item := concatText none (procItems tokens)

/-- builder.py:122-133 `clear` / `reset_numbering`: assigns every counter. -/
def Num.clear (n : Num) : Num :=
  { n with s1 := 0, s2 := 0, s3 := 0, math := 0, eq := 0, tab := 0, fig := 0, alg := 0 }

/-- builder.py:412-424 `organize_content`: `clear()`, then process a deep copy, then organise. The
builder's only state is its counters; the new counters are returned too. -/
def organizeContent (state : Num) (tokens : List Item) : Option (List Item × Num) :=
  organize (processTokens tokens) state.clear

end L2J
