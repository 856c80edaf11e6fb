import Verif.Model.Cxx
/-
Model of the files that a parallel `SiloWriter<2, double>::write` or `SiloWriter<3, double>::write` leaves behind (`/repo/src/SiloWriter_2d.cc`,
`/repo/src/SiloWriter_3d.cc` with `HAVE_MPI`). What one process writes is a value of a type `D` (modelled in `Model/Silo.lean`). Only the meshes are
followed; fields are named and stored in the same way.

The library PMPIO ("poor man's parallel I/O", a header of Silo) is not modelled beyond this: `PMPIO_GroupRank` and `PMPIO_RankInGroup` are given as a
function from ranks to pairs, and the baton makes the processes of a group open their common file one after the other in the order of their rank in the
group, the first with the create callback and the others with the open callback. Silo's `DBCreate` with mode 0 (`DB_CLOBBER`) leaves an empty file, whatever
was in it before.
-/
namespace Verif
namespace Silo

/-- The arguments of `write` that decide where things are written. Strings are lists of characters. -/
structure Job where
  dim3 : Bool
  nproc : Nat
  numFiles : Int := -1
  directory : List Char := []
  filePrefix : List Char
  cycle : Int := -1

/-- `prefix.find(".silo")` and `prefix.erase(index)`, `SiloWriter_2d.cc` L142-145, `SiloWriter_3d.cc` L167-170. -/
def strip : List Char → List Char
  | [] => []
  | c :: cs => if ['.', 's', 'i', 'l', 'o'].isPrefixOf (c :: cs) then [] else c :: strip cs

/-- `%d`. -/
def digits (n : Int) : List Char := (toString n).toList

/-- `masterDirName`, `SiloWriter_2d.cc` L161-167, `SiloWriter_3d.cc` L186-192: the directory in which the group directories are made. -/
def Job.dataDir (j : Job) : List Char := if j.directory = [] then j.filePrefix ++ ['-'] ++ digits j.nproc else j.directory

/-- The name of the files, `SiloWriter_2d.cc` L208-212 and `SiloWriter_3d.cc` L233-237, and of the master file, L461-464 and L503-506, without the directory. -/
def Job.fileName (j : Job) : List Char :=
  if 0 ≤ j.cycle then strip j.filePrefix ++ ['-'] ++ digits j.cycle ++ ['.', 's', 'i', 'l', 'o'] else strip j.filePrefix ++ ['.', 's', 'i', 'l', 'o']

/-- The directory of the master file: `masterDirName` in 2D (`SiloWriter_2d.cc` L461-464), `prefix-nproc` in 3D (`SiloWriter_3d.cc` L503-506). -/
def Job.masterDir (j : Job) : List Char := if j.dim3 then strip j.filePrefix ++ ['-'] ++ digits j.nproc else j.dataDir

/-- `numFiles == -1` stands for one file per process, `SiloWriter_2d.cc` L153-154, `SiloWriter_3d.cc` L178-179. -/
def Job.files (j : Job) : Int := if j.numFiles = -1 then j.nproc else j.numFiles

/-- A file of a group: its `domain_<rank in group>` directories. -/
abbrev GroupFile (D : Type) := List (Nat × D)

/-- `DBCreate(filename, 0, …)`. -/
def dbCreate {D : Type} (_ : GroupFile D) : GroupFile D := []

/-- `PMPIO_createFile` (`SiloWriter_2d.cc` L71-81, `SiloWriter_3d.cc` L96-106) followed by the writes of the process into its directory. -/
def createFile {D : Type} (old : GroupFile D) (c : Nat) (d : D) : GroupFile D := dbCreate old ++ [(c, d)]

/-- `PMPIO_openFile` with `PMPIO_WRITE` (`SiloWriter_2d.cc` L85-105, `SiloWriter_3d.cc` L110-130) followed by the writes of the process: the callback calls
`DBCreate` as well. -/
def openFile {D : Type} (old : GroupFile D) (c : Nat) (d : D) : GroupFile D := dbCreate old ++ [(c, d)]

/-- The processes of a group, from the one with rank `c` in the group on, write one after the other. -/
def passBaton {D : Type} : Nat → List D → GroupFile D → GroupFile D
  | _, [], f => f
  | 0, d :: ds, f => passBaton 1 ds (createFile f 0 d)
  | c + 1, d :: ds, f => passBaton (c + 2) ds (openFile f (c + 1) d)

/-- The processes of group `i` in the order of their ranks in the group. `g p` is (`PMPIO_GroupRank`, `PMPIO_RankInGroup`) of process `p`. -/
def members (nproc : Nat) (g : Nat → Nat × Nat) (i : Nat) : List Nat :=
  (List.range nproc).filterMap fun c => (List.range nproc).find? fun p => g p = (i, c)

/-- A name `<group>/<file>:/domain_<c>/mesh` in the master file. -/
structure Ref where
  group : Nat
  file : List Char
  domain : Nat
  deriving DecidableEq

/-- What is on disk afterwards: the directory of the master file, the names in it, and the group files by directory, group and file name. -/
structure Disk (D : Type) where
  masterDir : List Char
  refs : List Ref
  files : List Char → Nat → List Char → GroupFile D

/-- The parallel part of `write`: `SiloWriter_2d.cc` L148-216 and L399-524, `SiloWriter_3d.cc` L173-241 and L441-565. `nproc / numFiles` (L401, L443) is
undefined for no files. -/
def writeAll {D : Type} (dbg : Bool) (j : Job) (g : Nat → Nat × Nat) (data : Nat → D) : Res (Disk D) := do
  Res.assert dbg (j.files ≤ j.nproc)
  if j.files ≤ 0 then .ub else
  let numFiles := j.files.toNat
  let numChunks := j.nproc / numFiles
  pure
    { masterDir := j.masterDir
      refs := (List.range numFiles).flatMap fun i => (List.range numChunks).map fun c => { group := i, file := j.fileName, domain := c }
      files := fun dir i name =>
        if dir = j.dataDir ∧ name = j.fileName ∧ i < numFiles then passBaton 0 ((members j.nproc g i).map data) [] else [] }

/-- Following a name in the master file: group directory and file are taken relative to the directory of the master file. -/
def Disk.follow {D : Type} (w : Disk D) (r : Ref) : Option D := (w.files w.masterDir r.group r.file).lookup r.domain

end Silo
end Verif
