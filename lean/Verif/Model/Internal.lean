import Verif.Model.Mesh
/-
Model of the small utilities in `/repo/src/polytope_internal.hh`, `/repo/src/removeElements.hh` and `/repo/src/bisectSearch.hh`.
-/
namespace Verif.Internal
open Verif

/-! ### `addKeyToMap`, `hashEdge` -/

/-- A `std::map<Key, int>` used to number things: an association list. The iteration order of the map is not used by `addKeyToMap`. -/
abbrev KMap (κ : Type) := List (κ × Nat)

/-- `internal::addKeyToMap` (`/repo/src/polytope_internal.hh` L87-102): the returned id and the updated map. -/
def addKey [DecidableEq κ] (key : κ) (m : KMap κ) : Nat × KMap κ :=
  match m.lookup key with
  | some v => (v, m)
  | none => (m.length, m ++ [(key, m.length)])

/-- A sequence of `addKeyToMap` calls on one map, collecting the returned ids. -/
def addKeys [DecidableEq κ] : List κ → KMap κ → List Nat × KMap κ
  | [], m => ([], m)
  | k :: ks, m =>
    let r := addKey k m
    let s := addKeys ks r.2
    (r.1 :: s.1, s.2)

/-- `internal::hashEdge` (`/repo/src/polytope_internal.hh` L127-134). -/
def hashEdge (dbg : Bool) (i j : Int) : Res (Int × Int) := do
  Res.assert dbg (i ≠ j)
  return if i < j then (i, j) else (j, i)

/-- `internal::CounterMap::operator[]` followed by `++` (`/repo/src/polytope_internal.hh` L107-124): counters are functions, 0 by default. -/
def bump (c : Int → Nat) (k : Int) : Int → Nat := fun x => if x = k then c x + 1 else c x

/-! ### `computeSortedFaceEdges` (`/repo/src/polytope_internal.hh` L145-280) -/

/-- A pair of node ids. -/
abbrev Edge := Int × Int

/-- `nodes2edges[x]`: a `std::set<unsigned>` per node, as an increasing list. -/
abbrev N2E := Int → List Nat

/-- `nodes2edges[x].insert(i)`. The calls of L160-165 insert indices in increasing order, so inserting at the end keeps the list increasing. -/
def n2eInsert (s : N2E) (x : Int) (i : Nat) : N2E := fun y => if y = x then (if i ∈ s y then s y else s y ++ [i]) else s y

/-- `nodes2edges[x].erase(i)`. -/
def n2eErase (s : N2E) (x : Int) (i : Nat) : N2E := fun y => if y = x then (s y).filter (· ≠ i) else s y

/-- L160-165: build `nodes2edges` and `nodeUseCount`, from edge `i` on. -/
def invertEdges : Nat → List Edge → N2E × (Int → Nat) → N2E × (Int → Nat)
  | _, [], s => s
  | i, e :: es, s =>
    invertEdges (i + 1) es (n2eInsert (n2eInsert s.1 e.1 i) e.2 i, bump (bump s.2 e.1) e.2)

/-- L193-204: the two edges at the ends of an open chain. State: (result, nodes2edges, hangingNodes). -/
def findHanging (dbg : Bool) (use : Int → Nat) : Nat → List Edge → List Nat × N2E × List Int → Res (List Nat × N2E × List Int)
  | _, [], s => .ok s
  | i, e :: es, s =>
    if use e.1 = 1 ∨ use e.2 = 1 then do
      Res.assert dbg ((use e.1 = 1 ∧ use e.2 = 2) ∨ (use e.1 = 2 ∧ use e.2 = 1))
      findHanging dbg use (i + 1) es
        (s.1 ++ [i], n2eErase (n2eErase s.2.1 e.1 i) e.2 i, s.2.2 ++ [if use e.1 = 1 then e.1 else e.2])
    else findHanging dbg use (i + 1) es s

/-- L226-234: walk the remaining edges. `k` is `nedges - result.size()`. -/
def walkEdges (dbg : Bool) (edges : List Edge) : Nat → List Nat → N2E → Int → Res (List Nat)
  | 0, result, _, _ => .ok result
  | k + 1, result, n2e, last => do
    Res.assert dbg ((n2e last).length > 0)
    let i ← rd (n2e last) 0
    let e ← rd edges i
    walkEdges dbg edges k (result ++ [i]) (n2eErase (n2eErase n2e e.1 i) e.2 i) (if e.1 = last then e.2 else e.1)

/-- L250-258: set the orientation of the edges after the first. -/
def orientEdges (dbg : Bool) (edges : List Edge) : List Nat → Int → Res (List Int)
  | [], _ => .ok []
  | i :: is, last => do
    let e ← rd edges i
    Res.assert dbg (e.1 = last ∨ e.2 = last)
    if e.1 = last then do
      let r ← orientEdges dbg edges is e.2
      return (i : Int) :: r
    else do
      let r ← orientEdges dbg edges is e.1
      return flip i :: r

/-- The contract check L264-276 on consecutive (cyclically) signed edges. Only run in debug builds. -/
def contractOK (edges : List Edge) (result : List Int) : Bool :=
  (List.range edges.length).all fun i =>
    match result[i]?, result[(i + 1) % edges.length]? with
    | some ii, some jj =>
      match edges[posID ii]?, edges[posID jj]? with
      | some a, some b =>
        (if 0 ≤ ii then a.2 else a.1) == (if 0 ≤ jj then b.1 else b.2)
      | _, _ => false
    | _, _ => false

/-- L207-224: add the closing edge if there are two hanging nodes, and pick the node to start the walk from.
Returns (result, edges, lastNode). -/
def startWalk (dbg : Bool) (use : Int → Nat) (edges : List Edge) (result : List Nat) (hanging : List Int) :
    Res (List Nat × List Edge × Int) :=
  match hanging, result with
  | [h0, h1], r0 :: rs => do
    let ne ← hashEdge dbg h0 h1
    Res.assert dbg ((r0 :: edges.length :: rs).length = 3)
    let e ← rd (edges ++ [ne]) ((r0 :: edges.length :: rs).getLast (by simp))
    Res.assert dbg (use e.1 = 2 ∨ use e.2 = 2)
    return (r0 :: edges.length :: rs, edges ++ [ne], if use e.1 = 2 then e.1 else e.2)
  | [_, _], [] => .ub
  | _, _ => do
    let e ← rd edges 0
    return (result, edges, e.1)

/-- L249-258 and the contract check: orient the ordered edges. -/
def finishOrder (dbg : Bool) (edges : List Edge) (order : List Nat) : Res (List Int) :=
  match order with
  | r0 :: r1 :: rs => do
    let e0 ← rd edges r0
    let e1 ← rd edges r1
    let signed ← orientEdges dbg edges (r1 :: rs) (if e0.1 = e1.1 then e0.1 else e0.2)
    Res.assert dbg (edges.length = ((r0 : Int) :: signed).length)
    Res.assert dbg (contractOK edges ((r0 : Int) :: signed) = true)
    return (r0 : Int) :: signed
  | _ => .ub

/-- `internal::computeSortedFaceEdges`: returns (was a closing edge added, the edges, the signed order).
The caller passes an empty `result`. -/
def computeSortedFaceEdges (dbg : Bool) (edges : List Edge) : Res (Bool × List Edge × List Int) := do
  Res.assert dbg (edges.length ≥ 2)
  let inv := invertEdges 0 edges (fun _ => [], fun _ => 0)
  let h ← findHanging dbg inv.2 0 edges ([], inv.1, [])
  Res.assert dbg (h.1.length = 0 ∨ (h.2.2.length = 2 ∧ h.1.length = 2))
  let st ← startWalk dbg inv.2 edges h.1 h.2.2
  let order ← walkEdges dbg st.2.1 (st.2.1.length - st.1.length) st.1 h.2.1 st.2.2
  let signed ← finishOrder dbg st.2.1 order
  return (!h.2.2.isEmpty, st.2.1, signed)

/-! ### `removeElements.hh` -/

/-- `while (j != originalSize and delItr != endItr)` (`/repo/src/removeElements.hh` L61-71). `rem` is `originalSize - j`.
State: the vector, `old2new`, `i`, `j` and the elements still to delete. -/
def removeLoop : Nat → List α → List Int → Nat → Nat → List Nat → Res (List α × List Int × Nat × Nat)
  | 0, vec, o2n, i, j, _ => .ok (vec, o2n, i, j)
  | _ + 1, vec, o2n, i, j, [] => .ok (vec, o2n, i, j)
  | rem + 1, vec, o2n, i, j, d :: ds =>
    if j = d then removeLoop rem vec o2n i (j + 1) ds
    else do
      let o2n ← wr o2n j (i : Int)
      let v ← rd vec j
      let vec ← wr vec i v
      removeLoop rem vec o2n (i + 1) (j + 1) (d :: ds)

/-- L52, `for (i = 0; i != elements[0]; ++i) old2new[i] = i`, from `i` on, `k` steps. -/
def fillId : Nat → Nat → List Int → Res (List Int)
  | 0, _, o2n => .ok o2n
  | k + 1, i, o2n => do
    let o2n ← wr o2n i (i : Int)
    fillId k (i + 1) o2n

/-- L74, `for (k = j; k != originalSize; ++k) old2new[k] = i + k - j`, `rem` steps. -/
def fillTail : Nat → Nat → Nat → List Int → Res (List Int)
  | 0, _, _, o2n => .ok o2n
  | k + 1, i, j, o2n => do
    let o2n ← wr o2n j (i : Int)
    fillTail k (i + 1) (j + 1) o2n

/-- `internal::removeElements` (`/repo/src/removeElements.hh` L22-89): the shortened vector and the old-to-new map (-1 for removed).
`std::copy` onto an earlier part of the same vector is modelled by its effect. -/
def removeElements (dbg : Bool) (vec : List α) (elements : List Nat) : Res (List α × List Int) := do
  let n := vec.length
  let o2n := List.replicate n (-1 : Int)
  match elements with
  | [] => do
    let o2n ← fillId n 0 o2n
    return (vec, o2n)
  | d :: ds => do
    Res.assert dbg (List.Pairwise (· < ·) (d :: ds))
    Res.assert dbg ((d :: ds).getLast (by simp) < n)
    let o2n ← fillId d 0 o2n
    let (vec, o2n, i, j) ← removeLoop (n - (d + 1)) vec o2n d (d + 1) ds
    let vec := vec.take i ++ vec.drop j ++ vec.drop (i + (n - j))
    let o2n ← fillTail (n - j) i j o2n
    if n < (d :: ds).length then .ub else do
    let vec := vec.take (n - (d :: ds).length)
    Res.assert dbg (vec.length = n - (d :: ds).length)
    return (vec, o2n)

/-! ### `bisectSearch.hh` -/

/-- The loop L27-34 of `/repo/src/bisectSearch.hh`. -/
def bisectLoop [LE α] [DecidableLE α] (table : List α) (val : α) (ascnd : Bool) (jl ju : Int) : Res Int :=
  if ju - jl > 1 then do
    let jm := (ju + jl) / 2
    let t ← if 0 ≤ jm then rd table jm.toNat else .ub
    if decide (t ≤ val) = ascnd then bisectLoop table val ascnd jm ju else bisectLoop table val ascnd jl jm
  else .ok jl
termination_by (ju - jl).toNat
decreasing_by all_goals omega

/-- `bisectSearch` (`/repo/src/bisectSearch.hh` L17-41). The post-condition L38-41 reads `table[jl]` and `table[ju]` only in debug builds,
and only if the first two alternatives fail. -/
def bisectSearch [LE α] [DecidableLE α] (dbg : Bool) (table : List α) (val : α) : Res Int := do
  let n : Int := table.length
  let tl ← if n = 0 then .ub else rd table (n - 1).toNat
  let t0 ← rd table 0
  let ascnd := decide (t0 ≤ tl)
  let jl ← bisectLoop table val ascnd (-1) n
  let ju := jl + 1
  if dbg then
    if (jl = -1 ∧ decide (val ≤ t0) = ascnd) ∨ (jl = n - 1 ∧ decide (tl ≤ val) = ascnd) then return jl
    else do
      let tjl ← if 0 ≤ jl then rd table jl.toNat else .ub
      if decide (tjl ≤ val) = ascnd then do
        let tju ← if 0 ≤ ju then rd table ju.toNat else .ub
        Res.assert dbg (decide (val ≤ tju) = ascnd)
        return jl
      else .abort
  else return jl

end Verif.Internal
