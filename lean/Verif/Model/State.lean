import Verif.Model.Commands
/-! Model of the state a `TexReader` keeps between documents: which object holds what, what `clear` resets, and which attributes are
class attributes shared by all objects. -/
namespace L2J.State

/-- The three command managers and if/else handlers: of the parser, of the preprocessor, of the style-file parser. -/
inductive Owner | parser | preprocessor | sty
deriving DecidableEq

/-- The attributes that change while a document is processed. -/
inductive Field
  /-- tex_parser.py:50-61 -/
  | labels | unknown | colors | currentStr | currentDir | currentEnv
  /-- command_processor.py:100-101, keyval.py:32, command_manager.py:34 -/
  | commands (o : Owner) | lets (o : Owner) | keys (o : Owner) | cmUnknown (o : Owner)
  /-- if_else_statements.py:189 -/
  | ifs (o : Owner)
  /-- environment.py:187-188, :386 -/
  | newtheorems | floatnames | environments
  /-- etoolbox.py:20 -/
  | bools
  /-- the parser's BoxHandler, boxes.py:69-70 -/
  | boxSaved | boxNumbered
  /-- author.py:28 -/
  | thanks
  /-- the parser's ContentCommandHandler, content_command.py:88 -/
  | citealias
  /-- the BoxHandler and ContentCommandHandler of the parser's EquationHandler, equation.py:61-63 -/
  | eqBoxSaved | eqBoxNumbered | eqCitealias
  /-- the same of the preprocessor's EquationHandler, tex_preprocessor.py:77 -/
  | preBoxSaved | preBoxNumbered | preCitealias
  /-- sty_parser.py:44-45 -/
  | styDir | styFiles
  /-- builder.py:122-130 -/
  | sections | mathEnvs | equations | tables | figures | algorithms
deriving DecidableEq

/-- The mutable class attributes: `BoxHandler.saved_boxes`, `BoxHandler.numbered_boxes`, `ContentCommandHandler.citealias`,
`AuthorHandler.last_thanks_token`. -/
inductive ClassAttr | saved | numbered | citealias | thanks
deriving DecidableEq

/-- The class attribute an attribute falls back on as long as the object has none of its own. The constructors assign all other
attributes. -/
def Field.classAttr : Field → Option ClassAttr
  | .boxSaved | .eqBoxSaved | .preBoxSaved => some .saved
  | .boxNumbered | .eqBoxNumbered | .preBoxNumbered => some .numbered
  | .citealias | .eqCitealias | .preCitealias => some .citealias
  | .thanks => some .thanks
  | _ => none

/-- The attributes of a reader (`none`: the object has none of its own) and of the classes. -/
structure St (V : Type) where
  own : Field → Option V
  cls : ClassAttr → V

/-- `CommandManager.clear`, command_manager.py:36-41, with command_processor.py:103-105 and keyval.py:165-166. -/
def clearManager (o : Owner) : List Field := [.commands o, .lets o, .keys o, .cmUnknown o]

/-- `BoxHandler.clear`, boxes.py:80-82, of the parser's handler. -/
def clearBoxes : List Field := [.boxSaved, .boxNumbered]

/-- `EquationHandler.clear`, equation.py:65-66: only the boxes. -/
def clearEquations : List Field := [.eqBoxSaved, .eqBoxNumbered]

/-- The `clear` of `self.handlers`, tex_parser.py:75-105 and :129-130; the handlers not named keep nothing. -/
def clearHandlers : List Field :=
  [.bools] ++ clearBoxes ++ [.thanks] ++ clearEquations ++ [.citealias] ++ [.newtheorems, .floatnames, .environments]

/-- `LatexStyParser.clear`, sty_parser.py:54-58. -/
def clearSty : List Field := [.styDir, .styFiles, .ifs .sty] ++ clearManager .sty

/-- `LatexPreprocessor.clear`, tex_preprocessor.py:79-82: not the equation handler. -/
def clearPreprocessor : List Field := [.ifs .preprocessor] ++ clearManager .preprocessor ++ clearSty

/-- `LatexParser.clear`, tex_parser.py:119-136. -/
def clearParser : List Field :=
  [.labels, .unknown, .colors, .currentStr, .currentDir, .currentEnv] ++ clearManager .parser ++ clearHandlers ++
    [.ifs .parser] ++ clearPreprocessor

/-- `TokenBuilder.clear`, builder.py:122-133. -/
def clearBuilder : List Field := [.sections, .mathEnvs, .equations, .tables, .figures, .algorithms]

/-- What `TexReader.clear` resets, tex_reader.py:177-180. -/
def cleared : List Field := clearParser ++ clearBuilder

/-- The parts of the reader that are not followed here. -/
structure Machine (V Doc Out : Type) where
  /-- the value an attribute is given by the constructor and by `clear` -/
  initial : Field → V
  /-- the value a class attribute has after import -/
  classInitial : ClassAttr → V
  /-- whether the file exists -/
  exists_ : Doc → Bool
  /-- parse, build, take the colours: the result or the exception, and the state then -/
  run : Doc → St V → Except Unit Out × St V
  /-- attributes are assigned by the constructors and by `clear`; `last_thanks_token`, which is also assigned elsewhere, is its own
  after `clear` -/
  shape : ∀ d s f, ((run d s).2.own f).isSome = (s.own f).isSome
  /-- a class attribute is changed only through an object that has none of its own -/
  through : ∀ d s c, (∀ f, f.classAttr = some c → (s.own f).isSome = true) → (run d s).2.cls c = s.cls c

variable {V Doc Out : Type}

/-- `TexReader()` in a process whose classes are as given, tex_reader.py:53-56. -/
def Machine.fresh (M : Machine V Doc Out) (cls : ClassAttr → V) : St V :=
  ⟨fun f => if f.classAttr.isSome then none else some (M.initial f), cls⟩

/-- `TexReader()` after import. -/
def Machine.start (M : Machine V Doc Out) : St V := M.fresh M.classInitial

/-- `TexReader.clear`. -/
def Machine.clear (M : Machine V Doc Out) (s : St V) : St V :=
  { s with own := fun f => if cleared.contains f then some (M.initial f) else s.own f }

/-- `process_file`, tex_reader.py:101-130: result and state. `none`: the file does not exist. -/
def Machine.process (M : Machine V Doc Out) (s : St V) (d : Doc) : Option (Except Unit Out) × St V :=
  let s := M.clear s
  if M.exists_ d then
    match M.run d s with
    | (.ok out, s) => (some (.ok out), M.clear s)
    | (.error e, s) => (some (.error e), s)
  else (none, s)

/-- The state after processing some documents, failed or not. -/
def Machine.after (M : Machine V Doc Out) : St V → List Doc → St V
  | s, [] => s
  | s, d :: ds => M.after (M.process s d).2 ds

/-! The citation aliases in an equation, concretely. -/

/-- `\\defcitealias\s*{([^}]*)}\s*{`, content_command.py:65 (IGNORECASE is not modelled). -/
def defAliasRe : Re :=
  .seq (.lit "\\defcitealias".toList) (.seq (.star reSpace) (.seq (.lit ['{']) (.seq (.group 1 (.star (.chr (· != '}'))))
    (.seq (.lit ['}']) (.seq (.star reSpace) (.lit ['{']))))))

/-- `\\cite[tp]alias\s*{`, content_command.py:66. -/
def citeAliasRe : Re :=
  .seq (.lit "\\cite".toList) (.seq (.chr fun c => c == 't' || c == 'p') (.seq (.lit "alias".toList) (.seq (.star reSpace) (.lit ['{']))))

/-- A citation token: key and title. -/
abbrev Citation := Str × Option Str

/-- `ContentCommandHandler.handle` for these two commands, content_command.py:96-135 and :211-229, with one key: the token, if any, the
end, and the aliases. -/
def aliasHandle (aliases : Dict Str) (text : Str) : Option (Option Citation × Nat × Dict Str) :=
  match defAliasRe.matchAt [] text with
  | some m =>
    match extractNestedContent (text.drop (m.stop - 1)) '{' '}' with
    | none => some (none, m.stop, aliases)
    | some (content, e) => some (none, m.stop + e - 1, aliases.set (strip ((m.group 1).getD [])) (strip content))
  | none =>
    match citeAliasRe.matchAt [] text with
    | some m =>
      match extractNestedContent (text.drop (m.stop - 1)) '{' '}' with
      | none => some (none, m.stop, aliases)
      | some (content, e) =>
        let key := strip (strip content)
        some (some (key, (aliases.get? key).bind fun t => if t.isEmpty then none else some t), m.stop + e - 1, aliases)
    | none => none

/-- `_extract_contentcommands_as_placeholders`, equation.py:137-175, for an equation whose only content commands are these two: the
citations and the aliases. The fuel bounds the number of steps. -/
def aliasLoop : Nat → Dict Str → Str → List Citation × Dict Str
  | 0, aliases, _ => ([], aliases)
  | _ + 1, aliases, [] => ([], aliases)
  | n + 1, aliases, c :: rest =>
    match aliasHandle aliases (c :: rest) with
    | none => aliasLoop n aliases rest
    | some (tok, e, aliases) =>
      let r := aliasLoop n aliases ((c :: rest).drop (max e 1))
      (tok.toList ++ r.1, r.2)

/-- The dictionary an attribute refers to. -/
def St.get (s : St (Dict Str)) (f : Field) : Dict Str :=
  match s.own f with
  | some d => d
  | none => match f.classAttr with
    | some c => s.cls c
    | none => []

/-- An update of the dictionary an attribute refers to. -/
def St.put (s : St (Dict Str)) (f : Field) (d : Dict Str) : St (Dict Str) :=
  match s.own f, f.classAttr with
  | some _, _ => { s with own := fun g => if g = f then some d else s.own g }
  | none, some c => { s with cls := fun a => if a = c then d else s.cls a }
  | none, none => s

/-- A document that is one equation: the preprocessor's equation handler sees it first and its result is dropped
(tex_preprocessor.py:220-236), then the parser's sees it. -/
def equationMachine : Machine (Dict Str) Str (List Citation) where
  initial _ := []
  classInitial _ := []
  exists_ _ := true
  run text s :=
    let s := s.put .preCitealias (aliasLoop (text.length + 1) (s.get .preCitealias) text).2
    let r := aliasLoop (text.length + 1) (s.get .eqCitealias) text
    (.ok r.1, s.put .eqCitealias r.2)
  shape text s f := by
    have key : ∀ (s : St (Dict Str)) (g : Field) (d : Dict Str), ((s.put g d).own f).isSome = (s.own f).isSome := by
      intro s g d
      unfold St.put
      split
      · simp only
        split
        · rename_i h _; rw [‹f = g›, h]; rfl
        · rfl
      · rfl
      · rfl
    simp only [key]
  through text s c h := by
    have key : ∀ (s : St (Dict Str)) (g : Field) (d : Dict Str), (∀ f, f.classAttr = some c → (s.own f).isSome = true) →
        (s.put g d).cls c = s.cls c ∧ (∀ f, f.classAttr = some c → ((s.put g d).own f).isSome = true) := by
      intro s g d h
      unfold St.put
      split
      · refine ⟨rfl, fun f hf => ?_⟩
        simp only
        split
        · rfl
        · exact h f hf
      · rename_i a h1 h2
        refine ⟨?_, h⟩
        simp only
        split
        · rename_i hc; rw [← hc] at h2
          have := h g h2
          rw [h1] at this; cases this
        · rfl
      · exact ⟨rfl, h⟩
    simp only
    have k1 := key s .preCitealias (aliasLoop (text.length + 1) (s.get .preCitealias) text).2 h
    rw [(key _ .eqCitealias _ k1.2).1, k1.1]

end L2J.State
