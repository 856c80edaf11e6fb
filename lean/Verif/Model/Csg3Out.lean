import Verif.Model.Csg3
import Verif.Model.Hash
/-
Model of `ReducedPLCfromPolygons`, `/repo/src/PLC_CSG_3d.hh` L432-537, up to the first hash, and of the public operations (L546-589) with it.
-/
namespace Verif.Csg
open Verif Verif.Geom Verif.Points Verif.Hash

/-- The bounding box of the vertices (L442, L446-452). -/
noncomputable def boundsOf (v : V3 ℝ) (vs : List (V3 ℝ)) : HBox3 where
  lo := vs.foldl (fun m p => ⟨min m.x p.x, min m.y p.y, min m.z p.z⟩) v
  hi := vs.foldl (fun m p => ⟨max m.x p.x, max m.y p.y, max m.z p.z⟩) v

open Classical in
/-- `ReducedPLCfromPolygons`. `eh` is the `epsilon()` of the hasher. What follows after the first hash (L467 on) is not modelled; it is the parameter `rest`, which may do anything with
the hash. -/
noncomputable def fromPolygons (rest : Key → Res (RPLC ℝ)) (dbg : Bool) (eh tol : ℝ) (polys : List (Poly ℝ)) : Res (RPLC ℝ) := do
  Res.assert dbg (polys.length ≥ 4)
  match polys with
  | [] => .ub
  | p :: _ =>
    match p.verts with
    | [] => .ub
    | v :: _ => do
      Res.assert dbg (∀ p ∈ polys, p.verts.length ≥ 3)
      let b := boundsOf v (polys.flatMap Poly.verts)
      Res.assert dbg (b.lo.x < b.hi.x ∧ b.lo.y < b.hi.y ∧ b.lo.z < b.hi.z)
      let h ← hashPosition3 standard dbg eh tol b b v
      rest h

/-- The public operations (L546-589). -/
noncomputable def csgPublic3 (op : Nat → Tree (Poly ℝ) (Plane ℝ) → Tree (Poly ℝ) (Plane ℝ) → Option (Tree (Poly ℝ) (Plane ℝ))) (rest : Key → Res (RPLC ℝ)) (eps eh : ℝ) (n : Nat)
    (dbg : Bool) (a b : RPLC ℝ) : Res (Option (RPLC ℝ)) := do
  match ← csg3 op eps n dbg a b with
  | none => return none
  | some polys => do
    let r ← fromPolygons rest dbg eh eps polys
    return some r
end Verif.Csg
