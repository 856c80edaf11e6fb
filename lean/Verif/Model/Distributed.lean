import Verif.Model.Neighbors
import Verif.Model.Comm
/-
Model of `DistributedTessellator::computeDistributedTessellation` (`/repo/src/DistributedTessellator.cc` L190-560) in two dimensions, as a whole: the mesh that a process has before the coordinates of
shared nodes are exchanged (L585-735, modelled in `Model/Exchange.lean`).
-/
namespace Verif.Nbr
open Verif Verif.Mesh Verif.Geom Verif.Exch
section
variable {K κ : Type} [Field K] [LinearOrder K]

/-- The neighbours of process `rank` (L239-244): none if it is the only process. The check that being neighbours is symmetric (L246-261, with assertions) is left out: it holds by `C77_symmetric`. -/
def neighborsFor (dbg : Bool) (hull : List K → Res (RPLC K)) (serial all : List K → Res (Tess K)) (points : List (List K)) (rank : Nat) : Res (List Nat) :=
  if 1 < points.length then domainNeighbors dbg hull serial all points rank else .ok []

/-- Process `rank` of `points.length` (L203-204), with `mBuildCommunicationInfo` set. `points` are the points of all the processes. The exchange of generators L237-307 is replaced by its result: the
own generators and then those of the neighbours, in the order of the neighbours, with their owners (`C65_generators_partial`, and `C77_exchange` for these neighbours). `wrap` is
`tessellationWrapper` (L745-769), which leaves `neighborDomains` as it is. `key`, `fkey` and `srt` as in `localMesh`. -/
def distributed (dbg : Bool) (hull : List K → Res (RPLC K)) (serial all wrap : List K → Res (Tess K)) (key : List K → κ) (fkey : Tess K → Nat → Res κ)
    (srt : List (κ × Nat) → List (κ × Nat)) (points : List (List K)) (rank : Nat) : Res (Tess K) := do
  let mine ← rd points rank
  let nb ← neighborsFor dbg hull serial all points rank
  let gens := (rank :: nb).flatMap fun q => points.getD q []
  let g2d := (rank :: nb).flatMap fun q => List.replicate ((points.getD q []).length / 2) q
  Res.assert dbg (g2d.length = gens.length / 2)
  let m ← wrap gens
  localMesh dbg 2 rank (mine.length / 2) g2d (decide (1 < points.length)) key fkey srt { m with neighborDomains := nb }
end
end Verif.Nbr
