import Verif.Model.Files
/-! Specifications for file lookup. From the model only the file system, `pathJoin`, `dirname`, `endsWith` and the
comment stripper are used. -/
namespace L2J.Spec

/-- The elements whose key occurs at no earlier position, in order. -/
def firstOfEach {T : Type} (key : T → Str) (all : List T) : List T :=
  (List.range all.length).filterMap fun i =>
    all[i]?.bind fun t => if (all.take i).any (fun u => key u = key t) then none else some t

/-- The file system is consistent: the empty path does not exist, only directories list entries, and what a directory
lists exists. -/
structure FS.WF (fs : FS) : Prop where
  empty : fs.kind [] = .absent
  dirs : ∀ d, fs.listing d ≠ [] → fs.kind d = .dir
  entries : ∀ d, ∀ f ∈ fs.listing d, fs.kind (pathJoin d f) ≠ .absent

/-- A path with one of the two bibliography extensions. -/
def HasBibExt (path : Str) : Prop := ".bbl".toList <:+ path ∨ ".bib".toList <:+ path

/-- The places where a bibliography is looked for under its own name, in order. -/
def ownCandidates (path : Str) : List Str :=
  (if endsWith path ".bbl".toList || endsWith path ".bib".toList then [path] else []) ++
    [path ++ ".bbl".toList, path ++ ".bib".toList]

/-- The places where something else is taken instead: `main.bbl` and the `.bbl` files next to it. -/
def fallbackCandidates (fs : FS) (path : Str) : List Str :=
  pathJoin (dirname path) "main.bbl".toList ::
    ((fs.listing (dirname path)).filter (endsWith · ".bbl".toList)).map (pathJoin (dirname path))

mutual
/-- All files below a directory in the order of a top-down walk, with their paths relative to the folder. -/
def walk (root : List Str) : DirTree → List (List Str × Option Str)
  | .node files dirs => files.map (fun f => (root ++ [f.1], f.2)) ++ walkDirs root dirs
/-- The same for a list of sub-directories. -/
def walkDirs (root : List Str) : List (Str × DirTree) → List (List Str × Option Str)
  | [] => []
  | (name, t) :: ds => walk (root ++ [name]) t ++ walkDirs root ds
end

/-- A text contains another. -/
def Contains (s sub : Str) : Prop := ∃ a b, s = a ++ sub ++ b

/-- A readable `.tex` file that, comments removed, contains `\documentclass` or `\begin{document}`. -/
def LooksMain (f : List Str × Option Str) : Prop :=
  (∃ name, f.1.getLast? = some name ∧ ".tex".toList <:+ name) ∧
  ∃ s, f.2 = some s ∧ (Contains (stripLatexComments s) "\\documentclass".toList ∨
    Contains (stripLatexComments s) "\\begin{document}".toList)

end L2J.Spec
