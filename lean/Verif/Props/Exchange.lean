import Verif.Proofs.GenExchange
import Verif.Props.Parallel
import Verif.Proofs.Comm
/-
Properties C48 (exchange of shared nodes), C49 (neighbours without communication info) and C65 (exchange of generators).
-/
namespace Verif.Exch
open Verif Verif.Mesh Verif.Mpi
variable {R γ : Type}

/-! ### C48 -/

/-- C48. The exchange between any number of processes whose sharing is consistent, after any number of steps in any order: no step fails (in particular every
message has the length its receiver expects), some process can go on unless all have finished, the number of steps is bounded, and a finished process holds, for
each of its nodes, the coordinates of the lowest-ranked process that has the node. Needs every process to have a neighbour, see `C48_no_neighbour_fails`. -/
theorem C48_exchange_partial (dbg : Bool) {D n : Nat} (zero : R) {mesh : Nat → Tess R} {gid : Nat → Nat → γ} (h : Sharing D n mesh gid)
    (hne : ∀ p, p < n → (mesh p).neighborDomains ≠ []) {k : Nat} {y : Sys (NodeState R) R} (hr : Reach (nodeProg dbg D zero mesh) n k y) :
    (∀ p r, p < n → step (nodeProg dbg D zero mesh) n p y = some r → ∃ y', r = .ok y') ∧
    ((∀ p, p < n → ∃ s, y.proc p = .done s) ∨ ∃ p y', p < n ∧ step (nodeProg dbg D zero mesh) n p y = some (.ok y')) ∧
    k ≤ ∑ p ∈ Finset.range n, (2 * (mesh p).neighborDomains.length + 3) ∧
    ∀ p s, p < n → y.proc p = .done s → s.nodes.length = (mesh p).nodes.length ∧
      ∀ a q b, a < numNodes D (mesh p) → q < n → b < numNodes D (mesh q) → gid q b = gid p a →
        (∀ r c, r < n → c < numNodes D (mesh r) → gid r c = gid p a → q ≤ r) → node D { mesh p with nodes := s.nodes } a = node D (mesh q) b := by
  obtain ⟨h1, h2, h3, h4⟩ := exchange (nodeFits dbg zero h hne) hr
  refine ⟨h1, h2, h3, ?_⟩
  intro p s hp hs
  have := h4 p s hp hs
  subst this
  refine ⟨(nodesAt_spec h hp _ (le_refl _)).1, ?_⟩
  intro a q b ha hq hb hg hmin
  show nodeL D (nodesAt D n mesh gid p (mesh p).neighborDomains.length) a = _
  rw [nodesAt_final h hp ha]
  obtain ⟨⟨hl, c, hc, hcg⟩, hle⟩ := least_spec (gid := gid) hp ha
  have hq' : least D n mesh gid (gid p a) = q := le_antisymm (hle q ⟨hq, b, hb, hg⟩) (hmin _ c hl hc hcg)
  rw [target, hq', ← hg, locOf_eq h hq hb]

/-- C48, the sharers agree: two finished processes hold identical coordinates for a node they both have. -/
theorem C48_identical_partial (dbg : Bool) {D n : Nat} (zero : R) {mesh : Nat → Tess R} {gid : Nat → Nat → γ} (h : Sharing D n mesh gid)
    (hne : ∀ p, p < n → (mesh p).neighborDomains ≠ []) {k : Nat} {y : Sys (NodeState R) R} (hr : Reach (nodeProg dbg D zero mesh) n k y)
    {p q : Nat} {s t : NodeState R} (hp : p < n) (hq : q < n) (hs : y.proc p = .done s) (ht : y.proc q = .done t)
    {a b : Nat} (ha : a < numNodes D (mesh p)) (hb : b < numNodes D (mesh q)) (hg : gid p a = gid q b) :
    node D { mesh p with nodes := s.nodes } a = node D { mesh q with nodes := t.nodes } b := by
  obtain ⟨-, -, -, h4⟩ := C48_exchange_partial dbg zero h hne hr
  obtain ⟨⟨hl, c, hc, hcg⟩, hle⟩ := least_spec (gid := gid) hp ha
  rw [(h4 p s hp hs).2 a _ c ha hl hc hcg fun r c hr hc hcg => hle r ⟨hr, c, hc, hcg⟩]
  rw [(h4 q t hq ht).2 b _ c hb hl hc (by rw [hcg, hg]) fun r c hr hc hcg => hle r ⟨hr, c, hc, by rw [hcg, hg]⟩]

/-- C48 fails for a process without neighbours: it takes the address of the first element of an empty vector, which is undefined. -/
theorem C48_no_neighbour_fails (dbg : Bool) {D n : Nat} (zero : R) {mesh : Nat → Tess R} {p : Nat} (hp : p < n) (h : (mesh p).neighborDomains = []) :
    ∃ y, Reach (nodeProg dbg D zero mesh) n 2 y ∧ step (nodeProg dbg D zero mesh) n p y = some .ub := by
  have e1 : step (nodeProg dbg D zero mesh) n p (init _ _) = some (.ok ⟨setProc (fun _ => .start) p (.size 0 ⟨(mesh p).nodes, []⟩), fun _ _ => [], fun _ _ => []⟩) := by
    simp [step, init, nodeProg, ownNodes, h, sendAll]
  have r1 := Reach.step Reach.init hp e1
  have e2 : step (nodeProg dbg D zero mesh) n p ⟨setProc (fun _ => .start) p (.size 0 ⟨(mesh p).nodes, []⟩), fun _ _ => [], fun _ _ => []⟩ =
      some (.ok ⟨setProc (setProc (fun _ => .start) p (.size 0 ⟨(mesh p).nodes, []⟩)) p (.wait ⟨(mesh p).nodes, []⟩), fun _ _ => [], fun _ _ => []⟩) := by
    simp [step, setProc, nodeProg, h]
  refine ⟨_, Reach.step r1 hp e2, ?_⟩
  simp [step, setProc, nodeProg, h]

/-- The meshes that `SerialDistributedTessellator` returns share consistently, so C48 applies to them: the names of the nodes are their numbers in the serial mesh. -/
theorem C48_applies_to_C47 (dbg : Bool) {D : Nat} {procs : List (List (BitVec 64))} (h : Par.GoodInput D procs) {tess : List (BitVec 64) → Res (Tess (BitVec 64))}
    {m : Tess (BitVec 64)} (hm : Par.SerialResult D procs tess m) {mesh : Nat → Tess (BitVec 64)}
    (hr : ∀ p, p < procs.length → Par.computeAll dbg D tess procs p = .ok (mesh p)) (hsmall : D * numNodes D m < 2 ^ 31) :
    Sharing D procs.length mesh fun p i => old (Par.nodesOf D m (Par.cellsOfProc D procs p)) i := by
  obtain ⟨offs, ho, hoc, hcells, key⟩ := Par.computeAll_ok dbg h hm
  have hc := hm.mesh.consistent
  have hsort : ∀ kc, (Par.nodesOf D m kc).Pairwise (· < ·) := fun kc => List.Pairwise.filter _ List.pairwise_lt_range
  choose! nd hnd hR using fun p (hp : p < procs.length) => key p hp (mesh p) (hr p hp)
  have hrec := fun p (hp : p < procs.length) => Par.records_spec hm.mesh (hR p hp)
  have hc2 : ∀ p, Consistent D (Par.withComm D offs m p (nd p)) := fun p =>
    ⟨hc.dim_pos, hc.nodes_dvd, hc.faces_lt, hc.cells_lt, hc.faceCells_len, hc.faceCells_size, hc.faceCells_lt, hc.inverse⟩
  have hnn : ∀ p, p < procs.length → numNodes D (mesh p) = (Par.nodesOf D m (Par.own offs p)).length := fun p hp => (hR p hp).numNodes_eq (hc2 p)
  have hnodes : ∀ p, p < procs.length → ∀ l ∈ (mesh p).sharedNodes, ∀ i ∈ l, i < numNodes D (mesh p) := by
    intro p hp l hl i hi
    rw [hnn p hp]; exact (hR p hp).sharedNodes_lt l hl i hi
  have hmapl : ∀ p, p < procs.length → ∀ i, i < (mesh p).sharedNodes.length → ∃ q, (nd p)[i]? = some q ∧
      ((mesh p).sharedNodes.getD i []).map (old (Par.nodesOf D m (Par.own offs p))) = Par.nodesBetween D m (Par.own offs p) (Par.own offs q) := by
    intro p hp i hi
    rw [(hrec p hp).2.1] at hi
    exact ⟨(nd p)[i], List.getElem?_eq_getElem hi, ((hrec p hp).2.2 i _ (List.getElem?_eq_getElem hi)).nodes⟩
  refine ⟨hc.dim_pos, ?_, ?_, ?_, ?_, hnodes, ?_, ?_, ?_, ?_⟩
  · intro p hp q hq
    rw [(hrec p hp).1, (hnd p hp).mem] at hq
    exact ⟨hq.2.1, hq.1⟩
  · intro p hp
    rw [(hrec p hp).1]
    exact (hnd p hp).sorted.imp fun hab => ne_of_lt hab
  · intro p hp q hq
    rw [(hrec p hp).1, (hnd p hp).mem] at hq
    obtain ⟨h1, h2, k, h3, h4⟩ := hq
    rw [(hrec q h2).1, (hnd q h2).mem]
    exact ⟨Ne.symm h1, hp, k, h4, h3⟩
  · intro p hp; rw [(hrec p hp).1, (hrec p hp).2.1]
  · intro p hp a b ha hb hab
    rw [hnn p hp] at ha hb
    rw [← hoc p hp] at hab
    exact old_inj (hsort _) ha hb hab
  · intro p hp i q j hi hj
    rw [(hrec p hp).1] at hi
    have hq : q < procs.length := ((hnd p hp).mem q).1 (List.mem_of_getElem? hi) |>.2.1
    rw [(hrec q hq).1] at hj
    have e1 := ((hrec p hp).2.2 i q hi).nodes
    have e2 := ((hrec q hq).2.2 j p hj).nodes
    rw [← hoc p hp, ← hoc q hq]
    exact e1.trans ((Par.between_comm _ _ _ _).trans e2.symm)
  · intro p q hp hq hpq a b ha hb hg
    rw [hnn p hp] at ha
    rw [hnn q hq] at hb
    rw [← hoc p hp, ← hoc q hq] at hg
    have m1 := old_mem ha
    have m2 := old_mem hb
    simp only [hg] at m1
    have u1 : NodeUsed m (Par.own offs p) (old (Par.nodesOf D m (Par.own offs q)) b) ∧ old (Par.nodesOf D m (Par.own offs q)) b < numNodes D m := by
      rw [Par.nodesOf] at m1
      simp only [List.mem_filter, List.mem_range, decide_eq_true_eq] at m1
      exact ⟨m1.2, m1.1⟩
    have u2 : NodeUsed m (Par.own offs q) (old (Par.nodesOf D m (Par.own offs q)) b) := by
      have m3 := m2
      rw [Par.nodesOf] at m3
      simp only [List.mem_filter, decide_eq_true_eq] at m3
      exact m3.2
    have hmem : q ∈ nd p := ((hnd p hp).mem q).2 ⟨Ne.symm hpq, hq, _, u1.1, u2⟩
    obtain ⟨i, hi, hiq⟩ := List.getElem_of_mem hmem
    have hi' : (nd p)[i]? = some q := by rw [List.getElem?_eq_getElem hi, hiq]
    refine ⟨i, by rw [(hrec p hp).1]; exact hi', ?_⟩
    have e1 := ((hrec p hp).2.2 i q hi').nodes
    have : old (Par.nodesOf D m (Par.own offs p)) a ∈ ((mesh p).sharedNodes.getD i []).map (old (Par.nodesOf D m (Par.own offs p))) := by
      rw [e1, hg]
      simp only [Par.nodesBetween, List.mem_filter, List.mem_range, decide_eq_true_eq]
      exact ⟨u1.2, u1.1, u2⟩
    obtain ⟨a', ha', haa⟩ := List.mem_map.1 this
    have hal : a' < (Par.nodesOf D m (Par.own offs p)).length := by
      rw [← hnn p hp]; exact hnodes p hp _ (getD_mem_list (by rw [(hrec p hp).2.1]; exact hi) []) a' ha'
    rw [← old_inj (hsort _) hal ha haa]
    exact ha'
  · intro p hp l hl
    obtain ⟨i, hi, rfl⟩ := List.getElem_of_mem hl
    obtain ⟨q, hq, e1⟩ := hmapl p hp i hi
    have hle : (mesh p).sharedNodes[i].length ≤ numNodes D m := by
      have e2 : ((mesh p).sharedNodes.getD i []).length = (Par.nodesBetween D m (Par.own offs p) (Par.own offs q)).length := by
        simpa using congrArg List.length e1
      have e3 : (Par.nodesBetween D m (Par.own offs p) (Par.own offs q)).length ≤ numNodes D m := by
        have := List.length_filter_le (fun n => decide (NodeUsed m (Par.own offs p) n ∧ NodeUsed m (Par.own offs q) n)) (List.range (numNodes D m))
        rw [List.length_range] at this
        exact this
      have e4 : (mesh p).sharedNodes.getD i [] = (mesh p).sharedNodes[i] := by simp [hi]
      rw [e4] at e2; omega
    exact lt_of_le_of_lt (Nat.mul_le_mul_left _ hle) hsmall

/-! ### C49 -/

/-- A process with a neighbour and an empty shared-node table reads past the end of that table. -/
theorem dropEmpty_ub {m : Tess R} (hn : m.neighborDomains ≠ []) (hs : m.sharedNodes = []) : dropEmpty m = .ub := by
  unfold dropEmpty
  cases hl : m.neighborDomains.length with
  | zero => exact absurd (List.length_eq_zero_iff.1 hl) hn
  | succ k => simp [dropLoop, hs, rd]

/-- C49, what holds: if both tables have an entry for each neighbour, exactly the neighbours with which neither nodes nor faces are shared are removed, with
their entries; the others keep theirs, and nothing else changes. -/
theorem C49_removal_partial {m : Tess R} (hn : m.sharedNodes.length = m.neighborDomains.length) (hf : m.sharedFaces.length = m.neighborDomains.length) :
    ∃ m', dropEmpty m = .ok m' ∧ m' = { m with neighborDomains := m'.neighborDomains, sharedNodes := m'.sharedNodes, sharedFaces := m'.sharedFaces } ∧
      m'.sharedNodes.length = m'.neighborDomains.length ∧ m'.sharedFaces.length = m'.neighborDomains.length ∧
      comm m' = (comm m).filter fun e => decide (e.2.1 ≠ [] ∨ e.2.2 ≠ []) := by
  have hz : ∀ t, comm (setComm m t) = t := fun t => comm_setComm m t
  exact ⟨_, dropEmpty_spec hn hf, rfl, by simp [setComm], by simp [setComm], hz _⟩

example : ∃ m : Tess Int, m.sharedNodes.length = m.neighborDomains.length ∧ m.sharedFaces.length = m.neighborDomains.length ∧
    dropEmpty m = .ok { m with neighborDomains := [2, 7], sharedNodes := [[4], []], sharedFaces := [[], [1]] } :=
  ⟨{ neighborDomains := [2, 5, 7, 8], sharedNodes := [[4], [], [], []],
     sharedFaces := [[], [], [1], []] }, by decide +kernel⟩

/-! ### C65 -/

/-- C65. The exchange of generators, after any number of steps in any order: no step fails, some process can go on unless all have finished, the number of steps is
bounded, and a finished process has its own generators followed by those of its neighbours in the order of its list, and has recorded for each generator which
process it belongs to. Needs every process to have a neighbour, see `C65_no_neighbour_fails`. -/
theorem C65_generators_partial (dbg : Bool) {D n : Nat} {nb : Nat → List Nat} {pts : Nat → List (BitVec 64)} (hD : 0 < D) (hdvd : ∀ p, p < n → D ∣ (pts p).length)
    (hsm : ∀ p, p < n → 4 + 8 * (pts p).length < 2 ^ 31) (hlt : ∀ p, p < n → ∀ q ∈ nb p, q < n) (hsym : ∀ p, p < n → ∀ q ∈ nb p, p ∈ nb q)
    (hnd : ∀ p, p < n → (nb p).Nodup) (hne : ∀ p, p < n → nb p ≠ []) {k : Nat} {y : Sys (List (BitVec 64) × List Nat) Serialize.Byte}
    (hr : Reach (genProg dbg D nb pts) n k y) :
    (∀ p r, p < n → step (genProg dbg D nb pts) n p y = some r → ∃ y', r = .ok y') ∧
    ((∀ p, p < n → ∃ s, y.proc p = .done s) ∨ ∃ p y', p < n ∧ step (genProg dbg D nb pts) n p y = some (.ok y')) ∧
    k ≤ ∑ p ∈ Finset.range n, (2 * (nb p).length + 3) ∧
    ∀ p gens g2d, p < n → y.proc p = .done (gens, g2d) → gens = (p :: nb p).flatMap pts ∧
      g2d = (p :: nb p).flatMap fun q => List.replicate ((pts q).length / D) q := by
  obtain ⟨h1, h2, h3, h4⟩ := exchange (genFits dbg hD hdvd hsm hlt hsym hnd hne) hr
  refine ⟨h1, h2, h3, ?_⟩
  intro p gens g2d hp hs
  have := h4 p _ hp hs
  have e : (nb p).take ((genProg dbg D nb pts).nbrs p).length = nb p := List.take_length
  simp only [gensAt, e, Prod.mk.injEq] at this
  exact this

/-- C65, consequence: the two lists of a finished process belong together, and the generator a process recorded as belonging to `q` is a generator of `q`. -/
theorem C65_owners_partial (dbg : Bool) {D n : Nat} {nb : Nat → List Nat} {pts : Nat → List (BitVec 64)} (hD : 0 < D) (hdvd : ∀ p, p < n → D ∣ (pts p).length)
    (hsm : ∀ p, p < n → 4 + 8 * (pts p).length < 2 ^ 31) (hlt : ∀ p, p < n → ∀ q ∈ nb p, q < n) (hsym : ∀ p, p < n → ∀ q ∈ nb p, p ∈ nb q)
    (hnd : ∀ p, p < n → (nb p).Nodup) (hne : ∀ p, p < n → nb p ≠ []) {k : Nat} {y : Sys (List (BitVec 64) × List Nat) Serialize.Byte}
    (hr : Reach (genProg dbg D nb pts) n k y) {p : Nat} {gens : List (BitVec 64)} {g2d : List Nat} (hp : p < n) (hs : y.proc p = .done (gens, g2d)) :
    gens.length = D * g2d.length ∧ ∀ i q, g2d[i]? = some q → ∃ j, j < (pts q).length / D ∧
      (gens.drop (D * i)).take D = ((pts q).drop (D * j)).take D := by
  obtain ⟨rfl, rfl⟩ := (C65_generators_partial dbg hD hdvd hsm hlt hsym hnd hne hr).2.2.2 p gens g2d hp hs
  have hd : ∀ q ∈ p :: nb p, D ∣ (pts q).length := by
    intro q hq
    rcases List.mem_cons.1 hq with rfl | hq
    · exact hdvd _ hp
    · exact hdvd _ (hlt p hp q hq)
  generalize p :: nb p = l at hd
  induction l with
  | nil => simp
  | cons r l ih =>
    obtain ⟨h1, h2⟩ := ih fun q hq => hd q (by simp [hq])
    obtain ⟨c, hc⟩ := hd r (by simp)
    have hc' : (pts r).length / D = c := by rw [hc]; exact Nat.mul_div_cancel_left _ hD
    refine ⟨by rw [List.flatMap_cons, List.flatMap_cons, List.length_append, List.length_append, List.length_replicate, h1, hc', hc, Nat.mul_add], ?_⟩
    intro i q hi
    rw [List.flatMap_cons, hc'] at hi
    rw [List.flatMap_cons]
    by_cases hic : i < c
    · rw [List.getElem?_append_left (by simpa using hic), List.getElem?_replicate, if_pos hic] at hi
      cases hi
      refine ⟨i, by omega, ?_⟩
      have h3 : D * i + D ≤ (pts r).length := by
        rw [hc, ← Nat.mul_succ]; exact Nat.mul_le_mul_left D hic
      rw [List.drop_append_of_le_length (by omega), List.take_append_of_le_length (by simp; omega)]
    · rw [List.getElem?_append_right (by simpa using hic), List.length_replicate] at hi
      obtain ⟨j, hj, he⟩ := h2 (i - c) q hi
      refine ⟨j, hj, ?_⟩
      rw [← he, List.drop_append, List.drop_of_length_le (l := pts r) (by rw [hc]; exact Nat.mul_le_mul_left D (by omega)), List.nil_append, hc, ← Nat.mul_sub]

/-- C65 fails for a process without neighbours (only one process has generators near the boxes of others, say): the address of the first element of an empty vector is
taken, which is undefined. -/
theorem C65_no_neighbour_fails (dbg : Bool) {D n : Nat} {nb : Nat → List Nat} {pts : Nat → List (BitVec 64)} {p : Nat} (hp : p < n) (h : nb p = [])
    (hsm : 4 + 8 * (pts p).length < 2 ^ 31) :
    ∃ y, Reach (genProg dbg D nb pts) n 2 y ∧ step (genProg dbg D nb pts) n p y = some .ub := by
  have h1 : (Serialize.ser (.vec (.prim 8)) (pts p) []).length = 4 + 8 * (pts p).length := Par.ser_length (pts p) (by unfold Par.MsgSmall; omega)
  have hm : (Serialize.ser (.vec (.prim 8)) (pts p) []).length % 2 ^ 32 = 4 + 8 * (pts p).length := by rw [h1]; exact Nat.mod_eq_of_lt (by omega)
  obtain ⟨s, hs⟩ : ∃ s, (genProg dbg D nb pts).post p = .ok ([], s) := by
    refine ⟨(pts p, List.replicate ((pts p).length / D) p), ?_⟩
    simp only [genProg, hm, h]
    rw [if_neg (by omega), if_neg (by omega)]
    rfl
  have hnb : (genProg dbg D nb pts).nbrs p = [] := h
  have e1 : step (genProg dbg D nb pts) n p (init _ _) = some (.ok ⟨setProc (fun _ => .start) p (.size 0 s), fun _ _ => [], fun _ _ => []⟩) := by
    simp [step, init, hs, hnb, sendAll]
  have r1 := Reach.step Reach.init hp e1
  have e2 : step (genProg dbg D nb pts) n p ⟨setProc (fun _ => .start) p (.size 0 s), fun _ _ => [], fun _ _ => []⟩ =
      some (.ok ⟨setProc (setProc (fun _ => .start) p (.size 0 s)) p (.wait s), fun _ _ => [], fun _ _ => []⟩) := by
    simp [step, setProc, hnb]
  refine ⟨_, Reach.step r1 hp e2, ?_⟩
  simp [step, setProc, hnb]

/-! ### Cases that meet the hypotheses -/

/-- Three processes with two nodes each; the second is the same physical node on all three, with slightly different coordinates. -/
def exMesh (p : Nat) : Tess Int :=
  { nodes := [100 * p, 0, 50 + p, 60 + p], neighborDomains := [0, 1, 2].filter (· ≠ p), sharedNodes := [[1], [1]], sharedFaces := [[], []] }

/-- The names of the nodes. -/
def exGid (p a : Nat) : Nat := if a = 0 then p else 9

theorem exSharing : Sharing 2 3 exMesh exGid := by
  have hnn : ∀ p, numNodes 2 (exMesh p) = 2 := fun p => by simp [numNodes, exMesh]
  refine ⟨by decide, by decide, by decide, by decide, by decide, by decide, ?_, ?_, ?_, by decide⟩
  · intro p hp a b ha hb h
    rw [hnn] at ha hb
    unfold exGid at h
    split at h <;> split at h <;> omega
  · intro p hp i q j hi hj
    have l1 : ∀ k i, (exMesh k).sharedNodes.getD i [] = if i < 2 then [1] else [] := by
      intro k i
      rcases i with _ | _ | i <;> simp [exMesh]
    have l2 : ∀ p, p < 3 → (exMesh p).neighborDomains.length = 2 := by decide
    have l3 : ∀ p, p < 3 → ∀ q ∈ (exMesh p).neighborDomains, q < 3 := by decide
    have hi' := (List.getElem?_eq_some_iff.1 hi).1
    have hq := l3 p hp q (List.mem_of_getElem? hi)
    have hj' := (List.getElem?_eq_some_iff.1 hj).1
    rw [l2 p hp] at hi'
    rw [l2 q hq] at hj'
    rw [l1, l1, if_pos hi', if_pos hj']
    rfl
  · intro p q hp hq hpq a b ha hb h
    rw [hnn] at ha hb
    have ha1 : a = 1 := by
      unfold exGid at h
      split at h <;> split at h <;> omega
    subst ha1
    have : ∀ p, p < 3 → ∀ q, q < 3 → p ≠ q → (exMesh p).neighborDomains[0]? = some q ∨ (exMesh p).neighborDomains[1]? = some q := by decide
    rcases this p hp q hq hpq with h1 | h1
    · exact ⟨0, h1, by simp [exMesh]⟩
    · exact ⟨1, h1, by simp [exMesh]⟩

/-- Whatever the order of steps, process 2 ends with the coordinates process 0 has for the common node. -/
example (k : Nat) (y : Sys (NodeState Int) Int) (hr : Reach (nodeProg true 2 0 exMesh) 3 k y) (s : NodeState Int) (hs : y.proc 2 = .done s) :
    node 2 { exMesh 2 with nodes := s.nodes } 1 = [50, 60] :=
  ((C48_exchange_partial true 0 exSharing (by decide) hr).2.2.2 2 s (by decide) hs).2 1 0 1 (by decide) (by decide) (by decide) rfl fun r _ _ _ _ => Nat.zero_le r

/-- Two processes with one and two generators in the plane, and no errors in the exchange. -/
example (k : Nat) (y : Sys (List (BitVec 64) × List Nat) Serialize.Byte)
    (hr : Reach (genProg true 2 (fun p => [1 - p]) (fun p => if p = 0 then [1, 2] else [3, 4, 5, 6])) 2 k y) (g : List (BitVec 64)) (d : List Nat)
    (hs : y.proc 1 = .done (g, d)) : g = [3, 4, 5, 6, 1, 2] ∧ d = [1, 1, 0] := by
  have := (C65_generators_partial true (D := 2) (n := 2) (by decide) (by decide) (by decide) (by decide) (by decide) (by decide) (by decide) hr).2.2.2 1 g d (by decide) hs
  exact this

end Verif.Exch
