import Verif.Model.Comments
/-
Model of the code that looks files up: latex2json/parser/bib/bib_parser.py (`parse_file`), tex_parser.py
(`_parse_bib_file`), utils/tex_utils.py (`read_tex_file_content`) and tex_file_extractor.py (`find_main_tex_file`).

The file system is an arbitrary function from path strings to what is there; it does not change during a lookup.
Paths are POSIX paths. Decoding is part of the file system: `text p = none` means that opening or decoding raises.
-/
namespace L2J

/-- What `os.path.exists` and `os.path.isdir` say about a path (symbolic links are followed). -/
inductive Kind | absent | file | dir
deriving DecidableEq, Repr

/-- A file system, as far as it can be observed by the code. -/
structure FS where
  kind : Str → Kind
  /-- The decoded content of a file; `none` if reading or decoding raises. -/
  text : Str → Option Str
  /-- `os.listdir`, in the order in which the operating system lists the entries. -/
  listing : Str → List Str

/-- The exceptions that are told apart. -/
inductive Exn | fileNotFound | other
deriving DecidableEq, Repr

deriving instance DecidableEq for Except

/-- `os.path.exists`. -/
def FS.exists (fs : FS) (p : Str) : Bool := fs.kind p != .absent

/-- `open(p, "r").read()`: `FileNotFoundError` for a missing path, other errors for a directory or undecodable text. -/
def FS.open (fs : FS) (p : Str) : Except Exn Str :=
  match fs.kind p with
  | .absent => .error .fileNotFound
  | .dir => .error .other
  | .file => match fs.text p with
    | some s => .ok s
    | none => .error .other

/-- `os.listdir(p)`. -/
def FS.listdir (fs : FS) (p : Str) : Except Exn (List Str) :=
  match fs.kind p with
  | .absent => .error .fileNotFound
  | .file => .error .other
  | .dir => .ok (fs.listing p)

/-- POSIX `os.path.join(a, b)`. -/
def pathJoin (a b : Str) : Str :=
  if b.head? = some '/' then b
  else if a.isEmpty || a.getLast? == some '/' then a ++ b
  else a ++ '/' :: b

/-- POSIX `os.path.dirname(p)`: the part up to the last slash, without trailing slashes unless it is all slashes. -/
def dirname (p : Str) : Str :=
  let head := (p.reverse.dropWhile (· != '/')).reverse
  if head.all (· == '/') then head else (head.reverse.dropWhile (· == '/')).reverse

/-- bib_parser.py:80-97: the content found under the own name, if any. -/
def bibOwnContent (fs : FS) (path : Str) : Except Exn (Option Str) :=
  if (endsWith path ".bbl".toList || endsWith path ".bib".toList) && fs.exists path then some <$> fs.open path
  else if fs.exists (path ++ ".bbl".toList) then some <$> fs.open (path ++ ".bbl".toList)
  else if fs.exists (path ++ ".bib".toList) then some <$> fs.open (path ++ ".bib".toList)
  else pure none

/-- bib_parser.py:101-113: the fall-backs; `content` is left as it is if there is none. -/
def bibFallback (fs : FS) (path : Str) (content : Option Str) : Except Exn (Option Str) :=
  let dir := dirname path
  let main := pathJoin dir "main.bbl".toList
  if fs.exists main then some <$> fs.open main
  else fs.listdir dir >>= fun names =>
    match names.filter (endsWith · ".bbl".toList) with
    | f :: _ => some <$> fs.open (pathJoin dir f)
    | [] => pure content

/-- bib_parser.py:71-127 `BibParser.parse_file`; `parse` is `BibParser.parse`, which may raise. `not bib_content` (lines 100
and 115) holds for `None` and for the empty string. -/
def bibParseFile {E : Type} (parse : Str → Except Exn (List E)) (fs : FS) (path : Str) : Except Exn (List E) :=
  bibOwnContent fs path >>= fun content =>
  (if (content.getD []).isEmpty then bibFallback fs path content else pure content) >>= fun content =>
  if (content.getD []).isEmpty then pure [] else parse (content.getD [])

/-- `str.split(",")`. -/
def splitComma : Str → List Str
  | [] => [[]]
  | c :: cs =>
    if c = ',' then [] :: splitComma cs
    else match splitComma cs with
      | [] => [[c]]
      | p :: ps => (c :: p) :: ps

/-- tex_parser.py:337-344: the tokens whose key has not been seen. -/
def dedupeKeys {E : Type} (key : E → Str) : List Str → List E → List E
  | _, [] => []
  | seen, t :: ts => if seen.contains (key t) then dedupeKeys key seen ts else t :: dedupeKeys key (key t :: seen) ts

/-- tex_parser.py:322-326: `current_file_dir` (if set) is put in front. -/
def bibFullPath (cwd : Option Str) (p : Str) : Str :=
  match cwd with
  | some d => if d.isEmpty then p else pathJoin d p
  | none => p

/-- tex_parser.py:321-335: the loop over the file names. A file that raises contributes nothing; `convert` is
`_convert_bibentry_tokens` (line 290), which may raise. -/
def bibFilesTokens {E T : Type} (parse : Str → Except Exn (List E)) (convert : E → Except Exn T) (fs : FS)
    (cwd : Option Str) : List Str → List T
  | [] => []
  | p :: ps =>
    let toks := match bibParseFile parse fs (bibFullPath cwd p) >>= fun es => es.mapM convert with
      | .ok ts => ts
      | .error _ => []
    toks ++ bibFilesTokens parse convert fs cwd ps

/-- tex_parser.py:303-345 `_parse_bib_file`: the content of the bibliography token. -/
def parseBibFile {E T : Type} (parse : Str → Except Exn (List E)) (convert : E → Except Exn T) (key : T → Str)
    (fs : FS) (cwd : Option Str) (filePath : Str) : List T :=
  let paths := ((splitComma filePath).filter fun p => !(strip p).isEmpty).map strip
  dedupeKeys key [] (bibFilesTokens parse convert fs cwd paths)

/-- tex_utils.py:257-285 `read_tex_file_content`. -/
def readTexFileContent (fs : FS) (path ext : Str) : Except Exn Str :=
  let p := strip path
  let rec go : List Str → Except Exn Str
    | [] => .error .fileNotFound
    | q :: qs =>
      if fs.exists q then
        if fs.kind q = .dir then go qs else fs.open q
      else go qs
  go (if endsWith p ext then [p] else [p, p ++ ext])

/-- tex_file_extractor.py:16-32 `is_main_tex_file`. -/
def isMainTex (content : Str) : Bool :=
  let clean := stripLatexComments content
  (findSub "\\documentclass".toList clean).isSome || (findSub "\\begin{document}".toList clean).isSome

/-- A directory as `os.walk` sees it: the non-directories with their decoded contents (`none`: `read_file` raises) and the
sub-directories it descends into, each in the order of `os.scandir`. -/
inductive DirTree
  | node (files : List (Str × Option Str)) (dirs : List (Str × DirTree))

/-- tex_file_extractor.py:49-58, the loop over the files of one directory; `root` are the names of the directories
from the folder to here. -/
def findMainIn (root : List Str) : List (Str × Option Str) → Option (List Str)
  | [] => none
  | (name, text) :: fs =>
    if endsWith name ".tex".toList then
      match text with
      | some s => if isMainTex s then some (root ++ [name]) else findMainIn root fs
      | none => findMainIn root fs
    else findMainIn root fs

mutual
/-- tex_file_extractor.py:34-63 `find_main_tex_file`: the path of the first main file, relative to the folder;
`none` stands for the `FileNotFoundError`. `os.walk` is top-down: the files of a directory come before its
sub-directories. -/
def findMain (root : List Str) : DirTree → Option (List Str)
  | .node files dirs =>
    match findMainIn root files with
    | some r => some r
    | none => findMainDirs root dirs
/-- `os.walk` descends into the sub-directories in order. -/
def findMainDirs (root : List Str) : List (Str × DirTree) → Option (List Str)
  | [] => none
  | (name, t) :: ds =>
    match findMain (root ++ [name]) t with
    | some r => some r
    | none => findMainDirs root ds
end

end L2J
