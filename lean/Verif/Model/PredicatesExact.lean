import Verif.Model.Predicates
/-
Model of `orient2dfast` and `orient2dexact` (`/repo/src/predicates.cc` L1429-1480). As in `Model/Predicates.lean`, coordinates are rational numbers and `rnd` rounds the exact result of an operation.
-/
namespace Verif.Pred
open Verif
variable (rnd : ℚ → ℚ)

/-- `orient2dfast` (L1429-1438). -/
def orient2dfast (pa pb pc : ℚ × ℚ) : ℚ :=
  let acx := rnd (pa.1 - pc.1)
  let bcx := rnd (pb.1 - pc.1)
  let acy := rnd (pa.2 - pc.2)
  let bcy := rnd (pb.2 - pc.2)
  rnd (rnd (acx * bcy) - rnd (acy * bcx))

/-- `orient2dexact` (L1440-1480). `past` is what a read one past the last component of an expansion gives: the arrays `aterms`, `bterms` and `cterms` have four elements. -/
def orient2dexact (past : Res ℚ) (st : Statics) (pa pb pc : ℚ × ℚ) : Res ℚ :=
  let aterms := diffOfProducts rnd st pa.1 pb.2 pa.1 pc.2
  let bterms := diffOfProducts rnd st pb.1 pc.2 pb.1 pa.2
  let cterms := diffOfProducts rnd st pc.1 pa.2 pc.1 pb.2
  (fastExpansionSum rnd past aterms bterms).bind fun v =>
  (fastExpansionSum rnd past v cterms).bind fun w =>
  last w
end Verif.Pred
