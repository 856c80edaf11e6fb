import Verif.Model.Query
import Verif.Model.Box
import Verif.Model.Std
/-
Model of `/repo/src/snapToBoundary.cc`. Only `mesh.nodes` is written and only `mesh.nodes`, `mesh.boundaryNodes` are read; the rest of the mesh is not an argument.
-/
namespace Verif.Snap
open Verif Verif.Mesh Verif.Geom

/-- `nodes[2*i] = p.x; nodes[2*i+1] = p.y`. -/
def wrV2 {K : Type} (nodes : List K) (i : Nat) (p : V2 K) : Res (List K) := do
  let nodes ← wr nodes (2 * i) p.x
  wr nodes (2 * i + 1) p.y

/-- The search L51-55: `(dist, inode)`; `none` is an `inode` that was not written. -/
noncomputable def scan (tol : ℝ) (nodes : List ℝ) (p : V2 ℝ) : List Nat → ℝ → Option Nat → Res (ℝ × Option Nat)
  | [], d, i => .ok (d, i)
  | n :: ns, d, i =>
    if tol < d then do
      let x ← rdV2 nodes n
      scan tol nodes p ns (distance2 x p) (some n)
    else .ok (d, i)

/-- The state of the first loop: the nodes, `boundaryNodes`, the pairs of a PLC point and the node moved onto it (`plcNodes` is the set of the second components), and the
PLC points that stay in `indices`. -/
structure State where
  nodes : List ℝ
  bset : List Nat
  claims : List (Nat × Nat) := []
  left : List Nat := []

/-- One iteration of the loop L43-67 for the PLC point `v`; `big` is `numeric_limits::max()`. -/
noncomputable def vertexStep (big tol : ℝ) (verts : List ℝ) (st : State) (v : Nat) : Res State := do
  let p ← rdV2 verts v
  let r ← scan tol st.nodes p st.bset big none
  if r.1 < tol then
    match r.2 with
    | none => .ub
    | some i => do
      let nodes ← wrV2 st.nodes i p
      return { nodes := nodes, bset := st.bset.filter (· ≠ i), claims := st.claims ++ [(v, i)], left := st.left }
  else return { st with left := st.left ++ [v] }

/-- One iteration of the loop L103-127 for the boundary node `i`. A result that is not written by `nearestPoint` is the origin (`Point.hh` L22). -/
noncomputable def restStep (dbg : Bool) (big tol : ℝ) (verts : List ℝ) (plc : PLC) (nodes : List ℝ) (i : Nat) : Res (List ℝ) := do
  let x ← rdV2 nodes i
  let r ← nearestPoint dbg big (verts.length / 2) verts x plc
  let nodes ← (if tol ≤ r.1 then .ok nodes else wrV2 nodes i (r.2.getD ⟨0, 0⟩) : Res (List ℝ))
  Res.assert dbg (r.1 < tol)
  return nodes

/-- The tolerance (L29-34). The global reduction of the bounding box is the identity on one process. -/
noncomputable def snapTol (dbg : Bool) (big degeneracy : ℝ) (verts : List ℝ) : Res ℝ := do
  let box ← localBox dbg big 2 verts
  let bx ← rd box 0
  let by' ← rd box 1
  return 4 * degeneracy * max (bx.2 - bx.1) (by'.2 - by'.1)

/-- `snapToBoundary`, 2D (L21-128). The message before the assertions L97-99 is not modelled. -/
noncomputable def snap2 (dbg : Bool) (big degeneracy : ℝ) (nodes : List ℝ) (boundaryNodes : List Nat) (verts : List ℝ) (plc : PLC) : Res (List ℝ) := do
  let tol ← snapTol dbg big degeneracy verts
  let st ← (List.range (verts.length / 2)).foldlM (vertexStep big tol verts) { nodes := nodes, bset := setAddAll [] boundaryNodes }
  Res.assert dbg (st.left = [])
  Res.assert dbg ((setAddAll [] (st.claims.map Prod.snd)).length = verts.length / 2)
  st.bset.foldlM (restStep dbg big tol verts plc) st.nodes

/-- `snapToBoundary`, 3D (L133-139). -/
def snap3 (dbg : Bool) (nodes : List ℝ) : Res (List ℝ) := do
  Res.assert dbg False
  return nodes

end Verif.Snap
