import Verif.Model.Files
/-
Model of archive extraction, latex2json/tex_file_extractor.py:78-151, together with the parts of CPython's `posixpath`,
`zipfile` and `tarfile` it rests on (extraction without a tar filter, the default before Python 3.14).

A file system maps physical absolute paths (lists of names, no link on the way) to what is there. Symbolic links are
followed when a path is resolved. Not modelled: hard links, devices, permissions, and the contents of files. Where the
real call fails because something is in the way the model writes nevertheless or does nothing, so what it writes includes
all that the code writes.
-/
namespace L2J

/-- `s.split("/")`. -/
def splitSlash : Str → List Str
  | [] => [[]]
  | c :: cs =>
    if c = '/' then [] :: splitSlash cs
    else match splitSlash cs with
      | [] => [[c]]
      | p :: ps => (c :: p) :: ps

/-- The loop of `posixpath.normpath` over the components of a path that begins with a slash; `acc` is reversed. -/
def normComps : List Str → List Str → List Str
  | acc, [] => acc.reverse
  | acc, c :: cs =>
    if c = [] ∨ c = ['.'] then normComps acc cs
    else if c = ['.', '.'] then
      (if acc.head? = some ['.', '.'] then normComps (c :: acc) cs else normComps acc.tail cs)
    else normComps (c :: acc) cs

/-- `os.path.abspath(p)` for an absolute `p`: `normpath`, which keeps exactly two leading slashes. -/
def abspath (p : Str) : Str :=
  let comps := joinWith ['/'] (normComps [] (splitSlash p))
  if startsWith p ['/', '/'] && !startsWith p ['/', '/', '/'] then '/' :: '/' :: comps else '/' :: comps

/-- tex_file_extractor.py:89-97 and :124-131, the check of a member name; `dir` is the temporary directory, an absolute
path. -/
def memberOk (dir name : Str) : Bool :=
  !(startsWith name ['/'] || (findSub ['.', '.'] name).isSome ||
    !startsWith (abspath (pathJoin dir name)) (abspath dir))

/-- What is at a physical path. -/
inductive PNode | file | dir | link (target : Str)
deriving DecidableEq, Repr

/-- A file system with links. -/
abbrev PFS := List Str → Option PNode

/-- The physical path of `rest` seen from the physical directory `cur`, following every symbolic link; the fuel stands
for the limit on the number of links (`none`: `ELOOP`). -/
def resolve (fs : PFS) : Nat → List Str → List Str → Option (List Str)
  | _, cur, [] => some cur
  | 0, _, _ :: _ => none
  | n + 1, cur, c :: rest =>
    if c = [] ∨ c = ['.'] then resolve fs n cur rest
    else if c = ['.', '.'] then resolve fs n cur.dropLast rest
    else match fs (cur ++ [c]) with
      | some (.link t) => resolve fs n (if t.head? = some '/' then [] else cur) (splitSlash t ++ rest)
      | _ => resolve fs n (cur ++ [c]) rest

/-- Put a node at a physical path. -/
def PFS.put (fs : PFS) (p : List Str) (n : PNode) : PFS := fun q => if q = p then some n else fs q

/-- `os.makedirs`: every missing directory on the way to a physical path is created. -/
def PFS.mkdirs (fs : PFS) (p : List Str) : PFS := fun q => if q <+: p ∧ fs q = none then some .dir else fs q

/-- The kinds of members. -/
inductive MKind | file | dir | link (target : Str)
deriving DecidableEq, Repr

/-- A member of an archive. -/
structure Member where
  name : Str
  kind : MKind
deriving DecidableEq, Repr

/-- Create something at a path given by its components: the directories above it are made, a file is written through a
final link, a directory or a link is made under the given name. `fuel` bounds the resolution. -/
def createAt (fuel : Nat) (fs : PFS) (comps : List Str) (k : MKind) : PFS :=
  match comps.reverse with
  | [] => fs
  | last :: revParents =>
    match resolve fs fuel [] revParents.reverse with
    | none => fs
    | some parent =>
      let fs := fs.mkdirs parent
      match k with
      | .file => match resolve fs fuel [] comps with
        | some p => if fs p = some .dir then fs else fs.put p .file
        | none => fs
      | .dir =>
        if last = [] ∨ last = ['.'] ∨ last = ['.', '.'] then fs
        else if fs (parent ++ [last]) = none then fs.put (parent ++ [last]) .dir else fs
      | .link t =>
        if last = [] ∨ last = ['.'] ∨ last = ['.', '.'] then fs
        else if fs (parent ++ [last]) = some .dir then fs else fs.put (parent ++ [last]) (.link t)

/-- Remove trailing slashes (`targetpath.rstrip("/")`, `tarfile.TarFile._extract_member`). -/
def rstripSlash (s : Str) : Str := (s.reverse.dropWhile (· == '/')).reverse

/-- `tar.extract(member, dir)`: the target is `os.path.join(dir, member.name)`. -/
def tarExtract (fuel : Nat) (dir : Str) (fs : PFS) (m : Member) : PFS :=
  createAt fuel fs (splitSlash (rstripSlash (pathJoin dir m.name))) m.kind

/-- `zip_ref.extract(member, dir)`: empty, `.` and `..` components of the name are dropped; a name ending with a slash is a
directory, everything else (also a stored link) is written as a file. -/
def zipExtract (fuel : Nat) (dir : Str) (fs : PFS) (m : Member) : PFS :=
  let parts := (splitSlash m.name).filter fun c => !(c = [] ∨ c = ['.'] ∨ c = ['.', '.'])
  if parts.isEmpty then fs
  else createAt fuel fs (splitSlash dir ++ parts) (if m.name.getLast? = some '/' then .dir else .file)

/-- tex_file_extractor.py:116-139: check all members, then extract the accepted ones in order. -/
def extractTar (fuel : Nat) (dir : Str) (fs : PFS) (ms : List Member) : PFS :=
  (ms.filter fun m => memberOk dir m.name).foldl (tarExtract fuel dir) fs

/-- tex_file_extractor.py:80-108: the same for zip files. -/
def extractZip (fuel : Nat) (dir : Str) (fs : PFS) (ms : List Member) : PFS :=
  (ms.filter fun m => memberOk dir m.name).foldl (zipExtract fuel dir) fs

end L2J
