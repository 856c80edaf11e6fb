import Verif.Model.SiloParallel
/-
What a user of the parallel Silo writers expects: through the master file the mesh of every process can be found.
-/
namespace Verif
namespace Silo

/-- A division of `nproc` processes into `n` groups, as PMPIO makes it: each process has a group and a rank in the group, no two have the same, the ranks
in a group start at 0 without gaps, and no group has fewer than `nproc / n` processes. -/
structure IsGrouping (nproc n : Nat) (g : Nat → Nat × Nat) : Prop where
  group : ∀ p < nproc, (g p).1 < n
  inj : ∀ p < nproc, ∀ q < nproc, g p = g q → p = q
  gapless : ∀ p < nproc, ∀ c < (g p).2, ∃ q < nproc, g q = ((g p).1, c)
  full : ∀ i < n, ∀ c < nproc / n, ∃ q < nproc, g q = (i, c)

/-- Every process's data is found by following some name in the master file. -/
def Complete {D : Type} (nproc : Nat) (data : Nat → D) (w : Disk D) : Prop := ∀ p < nproc, ∃ r ∈ w.refs, w.follow r = some (data p)

/-- Every name in the master file leads to the data of some process. -/
def Sound {D : Type} (nproc : Nat) (data : Nat → D) (w : Disk D) : Prop := ∀ r ∈ w.refs, ∃ p < nproc, w.follow r = some (data p)

end Silo
end Verif
