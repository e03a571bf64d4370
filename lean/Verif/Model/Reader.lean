import Verif.Model.Files
/-
Model of the pipeline around the parser: latex2json/tex_reader.py (`TexReader`), the context manager of
tex_file_extractor.py:65-210 and `LatexParser.parse_file` (tex_parser.py:653-691).

Every operation that can fail has an arbitrary outcome (the fields of `Env`); the world records which temporary
directories exist. What the operations compute is abstract here: parsing and building are modelled elsewhere.
-/
namespace L2J.Reader

/-- The exceptions that are told apart. `tarRead` stands for the four classes caught in tex_file_extractor.py:144-149,
`base` for what is not an `Exception` (such as `KeyboardInterrupt`). -/
inductive PyExn
  | fileNotFound | texProcessing | runtime | io | value | tarRead | other (n : Nat) | base (n : Nat)
deriving DecidableEq, Repr

/-- `isinstance(e, Exception)`. -/
def PyExn.isException : PyExn → Bool
  | .base _ => false
  | _ => true

/-- The temporary directories that exist. -/
structure World where
  temps : List Nat
  next : Nat
deriving DecidableEq, Repr

/-- A computation with effects on the world that returns or raises. -/
abbrev M (α : Type) := World → Except PyExn α × World

/-- Sequencing: an exception ends the computation. -/
def M.bind {α β : Type} (m : M α) (f : α → M β) : M β := fun w =>
  match m w with
  | (.ok a, w') => f a w'
  | (.error e, w') => (.error e, w')

/-- `return`. -/
def M.pure {α : Type} (a : α) : M α := fun w => (.ok a, w)

/-- An operation with a given outcome and no effect on temporary directories. -/
def M.lift {α : Type} (x : Except PyExn α) : M α := fun w => (x, w)

/-- `try: m finally: f`; an exception in `f` wins. -/
def M.finally {α : Type} (m : M α) (f : M Unit) : M α := fun w =>
  match m w with
  | (r, w') => match f w' with
    | (.ok _, w'') => (r, w'')
    | (.error e, w'') => (.error e, w'')

/-- What the outside world and the parser do, for one input. -/
structure Env (Tok Out Col : Type) where
  /-- `Path.exists` of the input and of the files derived from it. -/
  fileExists : Str → Bool
  isDir : Str → Bool
  mkdtemp : Except PyExn Unit
  /-- tex_file_extractor.py:80-108. -/
  unzip : Except PyExn Unit
  /-- tex_file_extractor.py:117-139. -/
  untar : Except PyExn Unit
  /-- tex_file_extractor.py:155-176: decompress and read; is it a main file? -/
  gunzip : Except PyExn Bool
  /-- `find_main_tex_file` on the temporary directory. -/
  tempMain : Except PyExn Str
  /-- `find_main_tex_file` on an input folder. -/
  folderMain : Except PyExn Str
  rmtree : Except PyExn Unit
  /-- Reading the file (`read_tex_file_content`). -/
  read : Str → Except PyExn Str
  /-- `LatexParser.parse` on its content. -/
  parse : Str → Except PyExn (List Tok)
  /-- `TokenBuilder.build`. -/
  build : List Tok → Except PyExn (List Out)
  colors : Col

/-- tex_reader.py:17-32 `ProcessingResult`. -/
structure Result (Out Col : Type) where
  tokens : List Out
  colors : Col
  mainPath : Str
  tempDir : Option Nat
deriving DecidableEq, Repr

variable {Tok Out Col : Type} (env : Env Tok Out Col)

/-- `tempfile.mkdtemp()`. -/
def mkdtemp : M Nat := fun w =>
  match env.mkdtemp with
  | .ok _ => (.ok w.next, ⟨w.next :: w.temps, w.next + 1⟩)
  | .error e => (.error e, w)

/-- `shutil.rmtree(d)`: raises `FileNotFoundError` if the directory is gone. -/
def rmtree (d : Nat) : M Unit := fun w =>
  if w.temps.contains d then
    match env.rmtree with
    | .ok _ => (.ok (), { w with temps := w.temps.filter (· != d) })
    | .error e => (.error e, w)
  else (.error .fileNotFound, w)

/-- tex_parser.py:653-691 `LatexParser.parse_file`: every `Exception` is swallowed and gives no tokens. -/
def parseFile (path : Str) : Except PyExn (List Tok) :=
  match env.read path with
  | .error e => if e.isException then .ok [] else .error e
  | .ok s => match env.parse s with
    | .ok ts => .ok ts
    | .error e => if e.isException then .ok [] else .error e

/-- tex_reader.py:56-84 `_handle_file_operation`. -/
def handleFileOperation {α : Type} (op : M α) : M α := fun w =>
  match op w with
  | (.ok a, w') => (.ok a, w')
  | (.error e, w') =>
    (.error (if e = .fileNotFound then e else if e.isException then .texProcessing else e), w')

/-- tex_reader.py:86-99 `_verify_file_exists`. -/
def verifyExists (path : Str) : M Unit :=
  M.lift (if env.fileExists path then .ok () else .error .fileNotFound)

/-- tex_reader.py:101-135 `process_file`. -/
def processFile (path : Str) : M (Result Out Col) :=
  handleFileOperation <|
    M.bind (verifyExists env path) fun _ =>
    M.bind (M.lift (parseFile env path)) fun tokens =>
    M.bind (M.lift (env.build tokens)) fun output =>
    M.pure ⟨output, env.colors, path, none⟩

/-- tex_file_extractor.py:79-198: from the extension of the archive to the name of its main file. -/
def extractBody (path : Str) : Except PyExn Str :=
  let unsupported : Except PyExn Str :=
    if endsWith path ".gz".toList then
      match env.gunzip with
      | .ok true => .ok "main.tex".toList   -- the name derived from the archive's, not modelled
      | .ok false => .error .io              -- the `FileNotFoundError` is wrapped (lines 190-195)
      | .error e => if e.isException then .error .io else .error e
    else .error .value
  if endsWith path ".zip".toList then
    match env.unzip with
    | .ok _ => env.tempMain
    | .error e => .error e
  else if endsWith path ".tar.gz".toList || endsWith path ".tgz".toList then
    match env.untar with
    | .ok _ => match env.tempMain with
      | .error .tarRead => unsupported
      | r => r
    | .error .tarRead => unsupported
    | .error e => .error e
  else unsupported

/-- tex_file_extractor.py:65-210 `process_compressed_file` as a context manager around `body`. -/
def withCompressed {α : Type} (path : Str) (cleanup : Bool) (body : Str → Nat → M α) : M α :=
  M.bind (mkdtemp env) fun d =>
  M.finally (M.bind (M.lift (extractBody env path)) fun main => body main d)
    (if cleanup then rmtree env d else M.pure ())

/-- tex_reader.py:196-221 `process_compressed`. The path of the main file inside the temporary directory is abstracted to
its name. -/
def processCompressed (path : Str) (cleanup : Bool) : M (Result Out Col) := fun w =>
  if env.fileExists path then
    match withCompressed env path cleanup
      (fun main d => M.bind (processFile env main) fun r => M.pure { r with tempDir := some d }) w with
    | (.ok r, w') => (.ok r, w')
    | (.error e, w') => (.error (if e.isException then .runtime else e), w')
  else (.error .fileNotFound, w)

/-- tex_reader.py:27-31 `ProcessingResult.cleanup`. -/
def cleanupResult (r : Result Out Col) : M (Result Out Col) :=
  match r.tempDir with
  | some d => M.bind (rmtree env d) fun _ => M.pure { r with tempDir := none }
  | none => M.pure r

/-- tex_reader.py:223-251 `process_folder`. -/
def processFolder (path : Str) : M (Result Out Col) :=
  handleFileOperation <|
    M.bind (verifyExists env path) fun _ =>
    M.bind (M.lift env.folderMain) fun main =>
    processFile env (pathJoin path main)

/-- `pathlib.Path(path).suffix` of the last component: from its last dot, unless that is its first or last character. -/
def suffix (path : Str) : Str :=
  let name := (path.reverse.takeWhile (· != '/')).reverse
  let ext := (name.reverse.takeWhile (· != '.')).reverse
  if ext.isEmpty || name.length ≤ ext.length + 1 then [] else '.' :: ext

/-- tex_reader.py:253-292 `process`. -/
def process (path : Str) (cleanup : Bool) : M (Result Out Col) :=
  M.bind (verifyExists env path) fun _ =>
  handleFileOperation <|
    if env.isDir path then processFolder env path
    else if [".gz".toList, ".tar.gz".toList, ".tgz".toList, ".zip".toList].contains (suffix path) then
      M.bind (processCompressed env path false) fun r =>
      if cleanup then cleanupResult env r else M.pure r
    else processFile env path

end L2J.Reader
