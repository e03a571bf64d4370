import Verif.Model.PyStr
/-! Model of the loading of style and class files: latex2json/parser/sty_parser.py, the package part of
latex2json/parser/tex_preprocessor.py and `read_tex_file_content` in latex2json/utils/tex_utils.py. -/
namespace L2J.Sty

/-- What parsing a content does, as seen from outside: it ends with tokens, it raises, or it loads a package (`cls`: with
extension `.cls`) and goes on in a way that may depend on the tokens that gives. This stands for the loop `parse`,
sty_parser.py:128-244; that the loop gets from one load to the next in finite time is built into the type. -/
inductive Prog (T : Type) where
  | done (tokens : List T)
  | raise
  | load (name : Str) (cls : Bool) (k : List T → Prog T)

/-- What is at a path. -/
inductive Entry (T : Type) where
  | absent
  | dir
  | unreadable
  | file (p : Prog T)

/-- The file system with `os.path.join`, `abspath` and `dirname`. -/
structure FS (T : Type) where
  entry : Str → Entry T
  join : Str → Str → Str
  abs : Str → Str
  dirname : Str → Str

/-- `os.path.exists`. -/
def FS.exists {T} (fs : FS T) (p : Str) : Bool := match fs.entry p with | .absent => false | _ => true

/-- tex_utils.py:271-276: the path, and the path with the extension unless it ends with it. -/
def pathsToTry (p ext : Str) : List Str := p :: (if ext.isSuffixOf p then [] else [p ++ ext])

/-- `read_tex_file_content`, tex_utils.py:254-284: the file read and what it does, or `none` for an exception. (Stripping
blanks from the path has no effect on an absolute path without blanks at its end, which is assumed.) -/
def readFile {T} (fs : FS T) (p ext : Str) : Option (Str × Prog T) :=
  let rec go : List Str → Option (Str × Prog T)
    | [] => none
    | q :: qs =>
      match fs.entry q with
      | .absent => go qs
      | .dir => go qs
      | .unreadable => none
      | .file prog => some (q, prog)
  go (pathsToTry p ext)

/-- `current_file_dir` and `parsed_files`, sty_parser.py:43-44, and a log of the files whose content was parsed. -/
structure State where
  dir : Option Str
  parsed : List Str
  log : List Str

/-- After `clear`, sty_parser.py:53-57. The log starts anew. -/
def cleared : State := ⟨none, [], []⟩

def extOf (cls : Bool) : Str := if cls then ".cls".toList else ".sty".toList

/-- The path of a package, sty_parser.py:78-82 and tex_preprocessor.py:170-174. -/
def packagePath {T} (fs : FS T) (dir : Option Str) (name : Str) (cls : Bool) : Str :=
  let p := match dir with
    | some d => if d.isEmpty then strip name else fs.join d (strip name)
    | none => strip name
  if (extOf cls).isSuffixOf p then p else p ++ extOf cls

/-- `_parse_packages` for one name, sty_parser.py:76-85. -/
def loadPackage {T} (fs : FS T) (parseFile : State → Str → Option (State × List T)) (st : State) (name : Str) (cls : Bool) :
    Option (State × List T) :=
  let p := packagePath fs st.dir name cls
  if fs.exists p then parseFile st p else some (st, [])

/-- Running a content. The outcome is `none` in the inner option if it raises. -/
def runProg {T} (load : State → Str → Bool → Option (State × List T)) : Prog T → State → Option (State × Option (List T))
  | .done ts, st => some (st, some ts)
  | .raise, st => some (st, none)
  | .load name cls k, st =>
    match load st name cls with
    | none => none
    | some (st', ts) => runProg load (k ts) st'

/-- `parse_file`, sty_parser.py:246-274, always called with the extension `.sty`. `none` if the nesting is deeper than the
fuel. An exception is caught and gives no tokens, and then the directory is not restored. -/
def parseFile {T} (fs : FS T) : Nat → State → Str → Option (State × List T)
  | 0, _, _ => none
  | fuel + 1, st, path =>
    let p := fs.abs path
    if st.parsed.contains p then some (st, [])
    else
      match readFile fs p ".sty".toList with
      | none => some (st, [])
      | some (q, prog) =>
        match runProg (loadPackage fs (parseFile fs fuel)) prog ⟨some (fs.dirname p), p :: st.parsed, st.log ++ [q]⟩ with
        | none => none
        | some (st2, some ts) => some ({ st2 with dir := st.dir }, ts)
        | some (st2, none) => some (st2, [])

/-- A package the document asks for, `_parse_packages` of tex_preprocessor.py:165-180: the directory of the document, the name
and the extension. -/
structure Request where
  dir : Option Str
  name : Str
  cls : Bool

/-- Handling it. -/
def request {T} (fs : FS T) (fuel : Nat) (st : State) (r : Request) : Option (State × List T) :=
  let p := packagePath fs r.dir r.name r.cls
  if fs.exists p then parseFile fs fuel st p else some (st, [])

/-- Handling all requests of a document. -/
def requests {T} (fs : FS T) (fuel : Nat) : State → List Request → Option State
  | st, [] => some st
  | st, r :: rs =>
    match request fs fuel st r with
    | none => none
    | some (st', _) => requests fs fuel st' rs

end L2J.Sty
