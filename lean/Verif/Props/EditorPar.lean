import Verif.Proofs.EditorParSeveral
import Verif.Props.Editor
/-
Property C84 (`MeshEditor::cleanEdges` on 2D meshes, several processes).
-/
namespace Verif.Editor
open Verif Verif.Mesh Verif.Internal Verif.Mpi
variable {R K : Type}

/-- Run the given processes one step each, in the given order. -/
def runSched {σ β : Type} (P : Prog σ β) (n : Nat) : List Nat → Sys σ β → Option (Sys σ β)
  | [], y => some y
  | p :: ps, y => if p < n then match step P n p y with
    | some (.ok y') => runSched P n ps y'
    | _ => none
    else none

theorem runSched_reach {σ β : Type} {P : Prog σ β} {n : Nat} : ∀ (l : List Nat) {k : Nat} {y y' : Sys σ β}, Reach P n k y → runSched P n l y = some y' →
    Reach P n (k + l.length) y'
  | [], k, y, y', h, e => by simp only [runSched, Option.some.injEq] at e; subst e; exact h
  | p :: ps, k, y, y', h, e => by
    rw [runSched] at e
    split at e
    · rename_i hp
      cases hs : step P n p y with
      | none => rw [hs] at e; simp at e
      | some r =>
        cases r with
        | ok z =>
          rw [hs] at e
          have := runSched_reach ps (Reach.step h hp hs) e
          rw [List.length_cons, Nat.add_comm ps.length 1, ← Nat.add_assoc]
          exact this
        | abort => rw [hs] at e; simp at e
        | ub => rw [hs] at e; simp at e
    · simp at e

/-- What is asked of the mesh of a process: it is a valid 2D mesh, it shares no node twice, and the message about its edges is not too long to send. -/
structure Cleanable (m : Tess R) : Prop where
  consistent : Consistent 2 m
  comm : CommOK 2 m
  planar : Planar m
  boundary : ClosedBoundary m
  nodup : (sharedN m).Nodup
  small : 4 + 4 * m.faces.length < 2 ^ 31

section
variable [Field K] [LinearOrder K] [IsStrictOrderedRing K]

/-- C84, what holds: processes that each have exactly one neighbour clean their edges together, the MPI library copying messages when they are sent. After any number
of steps in any order no step fails, some process can go on unless all have finished, the number of steps is bounded, and a finished process returns a mesh. That
mesh does not depend on the order of steps. It is the mesh of the process with merges carried out that `Joint` describes: those that cleaning by itself would make,
except along edges shared with the neighbour which the neighbour by itself would not merge. Both sides of a border merge their shared nodes in the same way, and if
they agreed before then they agree afterwards. Missing: processes with no neighbour (`C84_no_neighbour_fails`) or several (`C84_several_neighbours_fails`), MPI
libraries that do not copy (`C84_lifetime_fails`), and boundary nodes that stay on the boundary (`C84_boundary_fails`). -/
theorem C84_clean_together_partial (dbg : Bool) {n : Nat} {mesh : Nat → Tess R} {mate : Nat → Nat} {dist : List R → List R → K}
    {collin : List R → List R → List R → Bool} {tol : K} (hpair : Paired n mesh mate) (hm : ∀ p, p < n → Cleanable (mesh p))
    (hA : ∀ p, p < n → Agree (mesh p) (mesh (mate p))) (hE : ∀ p, p < n → SameEdges (mesh p) (mesh (mate p)))
    (hsym : ∀ p q, dist p q = dist q p) (hnn : ∀ p q, 0 ≤ dist p q) (hcol : ∀ p q r, collin p q r = collin p r q) (ht : 0 < tol) :
    ∃ (alone mesh' : Nat → Tess R) (own tgt : Nat → Nat → Nat) (an af kn kf : Nat → List Nat),
      (∀ k y, Reach (cleanProg dbg true 2 mesh dist collin tol) n k y →
        (∀ p r, p < n → step (cleanProg dbg true 2 mesh dist collin tol) n p y = some r → ∃ y', r = .ok y') ∧
        ((∀ p, p < n → ∃ s, y.proc p = .done s) ∨ ∃ p y', p < n ∧ step (cleanProg dbg true 2 mesh dist collin tol) n p y = some (.ok y')) ∧
        k ≤ ∑ p ∈ Finset.range n, (2 * (mesh p).neighborDomains.length + 3) ∧
        ∀ p s, p < n → y.proc p = .done s → finish dbg 2 (mesh p) s = .ok (mesh' p)) ∧
      ∀ p, p < n →
        (cleanEdges dbg 2 (mesh p) dist collin tol = .ok (alone p) ∧ Matching (mesh p) dist collin tol (own p) ∧ Merged 2 (mesh p) (an p) (af p) (own p) (alone p)) ∧
        Merged 2 (mesh p) (kn p) (kf p) (tgt p) (mesh' p) ∧ Joint (mesh p) (mesh (mate p)) (own p) (own (mate p)) (tgt p) ∧
        SameMoves (mesh p) (mesh (mate p)) (tgt p) (tgt (mate p)) ∧ Agree (mesh' p) (mesh' (mate p)) ∧
        (mesh' p).neighborDomains = (mesh p).neighborDomains ∧ ((∀ i, i < numNodes 2 (mesh p) → tgt p i = i) → mesh' p = mesh p) ∧
        Consistent 2 (mesh' p) ∧ CommOK 2 (mesh' p) ∧ Planar (mesh' p) ∧ (mesh' p).cells.length = (mesh p).cells.length ∧
        ∀ c, c < (mesh p).cells.length → ClosedLoop (mesh p) (cell (mesh p) c) → ClosedLoop (mesh' p) (cell (mesh' p) c) := by
  haveI : Nonempty (Scan K) := ⟨{}⟩
  haveI : Nonempty Flags := ⟨Flags.init 0 0⟩
  haveI : Nonempty (Tess R) := ⟨mesh 0⟩
  have hready : ∀ p, p < n → ∃ sc fl pm es, Ready dbg (mesh p) dist collin tol sc fl pm es := fun p hp =>
    ready dbg (hm p hp).consistent (hm p hp).comm (hm p hp).planar (hm p hp).boundary hsym hnn hcol ht (hpair.nbrs p hp) (hpair.lists p hp) (hm p hp).nodup
  choose! sc fl pm es hr using hready
  have hal : ∀ p, p < n → ∃ m' kn kf, cleanEdges dbg 2 (mesh p) dist collin tol = .ok m' ∧ Merged 2 (mesh p) kn kf (old (fl p).coll) m' := by
    intro p hp
    obtain ⟨corner, e⟩ := (hr p hp).flags
    obtain ⟨m', kn, kf, e1, e2, _⟩ := cleanEdges_of_flags dbg (hm p hp).consistent (hm p hp).comm (hm p hp).planar ht e (hr p hp).scan (hr p hp).own
    exact ⟨m', kn, kf, e1, e2⟩
  choose! alone an af hal1 hal2 using hal
  have hfin : ∀ p, p < n → ∃ m' s kn kf, finish dbg 2 (mesh p) (stateOf mesh sc fl pm es p (sentMask mesh sc fl es (mate p))) = .ok m' ∧
      Merged 2 (mesh p) kn kf s m' ∧ m'.neighborDomains = (mesh p).neighborDomains ∧ m'.boundaryNodes = (mesh p).boundaryNodes ∧
      m'.boundaryFaces = (mesh p).boundaryFaces ∧
      ((∀ n, n < numNodes 2 (mesh p) → s n = n) → m' = mesh p) ∧ Joint (mesh p) (mesh (mate p)) (old (fl p).coll) (old (fl (mate p)).coll) s := by
    intro p hp
    have hq := hpair.lt p hp
    exact finish_joint dbg ht (hm p hp).consistent (hm p hp).comm (hm p hp).planar (hm _ hq).consistent (hm _ hq).planar (hm _ hq).comm (hr p hp) (hr _ hq)
      (hpair.nbrs p hp) (hpair.lists p hp) (hpair.lists _ hq) (hm p hp).nodup (hm _ hq).nodup (hA p hp).nodes (hE p hp)
  choose! mesh' tgt kn kf hf1 hf2 hf3 hf4 hf5 hf6 hf7 using hfin
  refine ⟨alone, mesh', fun p => old (fl p).coll, tgt, an, af, kn, kf, ?_, ?_⟩
  · intro k y hreach
    obtain ⟨h1, h2, h3, h4⟩ := exchange (maskFits dbg hpair ht hr (fun p hp => (hm p hp).nodup) (fun p hp => (hm p hp).small)) hreach
    refine ⟨h1, h2, h3, ?_⟩
    intro p s hp hs
    have := h4 p s hp hs
    rw [show (cleanProg dbg true 2 mesh dist collin tol).nbrs p = [mate p] from hpair.nbrs p hp] at this
    simp only [List.length_singleton, Nat.one_ne_zero, if_false] at this
    rw [this]
    exact hf1 p hp
  · intro p hp
    have hq := hpair.lt p hp
    have hbk := hpair.back p hp
    have memN : ∀ p, p < n → sharedN (mesh p) ∈ (mesh p).sharedNodes := by
      intro p hp
      obtain ⟨a, e⟩ := List.length_eq_one_iff.1 (hpair.lists p hp)
      simp [sharedN, e]
    have hlt := fun p hp => (hm p hp).comm.nodes_lt _ (memN p hp)
    have hJ' := hf7 _ hq
    rw [hbk] at hJ'
    have hE' := hE _ hq
    rw [hbk] at hE'
    have hsame : SameMoves (mesh p) (mesh (mate p)) (tgt p) (tgt (mate p)) :=
      sameMoves (hf2 p hp) (hf2 _ hq) (hf7 p hp) hJ' (hm p hp).nodup (hm _ hq).nodup (hlt p hp) (hlt _ hq) (hA p hp).nodes (hE p hp) hE'
    have hmat : Matching (mesh p) dist collin tol (old (fl p).coll) := by
      obtain ⟨corner, e⟩ := (hr p hp).flags
      exact matching_of_flags (hm p hp).consistent (hm p hp).planar (hr p hp).scan (hr p hp).own (flagEdges_choice (hm p hp).consistent (hm p hp).planar hsym e)
    refine ⟨⟨hal1 p hp, hmat, hal2 p hp⟩, hf2 p hp, hf7 p hp, hsame, ?_, hf3 p hp,
      hf6 p hp, (hf2 p hp).consistent (hm p hp).consistent, (hf2 p hp).commOK (hm p hp).consistent (hm p hp).comm, (hf2 p hp).planar (hm p hp).planar,
      (hf2 p hp).cells_length, fun c hc hL => (hf2 p hp).closedLoop (hm p hp).consistent (hm p hp).planar hc hL⟩
    refine agree_merged (hm p hp).consistent (hm _ hq).consistent (hm p hp).comm (hm _ hq).comm (hpair.lists p hp) (hpair.lists _ hq) (hf2 p hp) (hf2 _ hq) ?_
      (hm p hp).nodup (hm _ hq).nodup (hA p hp) hsame
    intro j hj
    by_cases hz : tgt p (old (sharedN (mesh p)) j) = old (sharedN (mesh p)) j
    · exact ⟨j, hj, hz⟩
    · obtain ⟨i, hi, e⟩ := (hf7 p hp).front j hj hz
      exact ⟨i, by omega, e⟩

/-- C84 fails for a process without neighbours: it takes the address of the first element of an empty vector, which is undefined. -/
theorem C84_no_neighbour_fails (dbg eager : Bool) {n p : Nat} {mesh : Nat → Tess R} {dist : List R → List R → K}
    {collin : List R → List R → List R → Bool} {tol : K} (hp : p < n) (hn : (mesh p).neighborDomains = [])
    (hc : Consistent 2 (mesh p)) (hpl : Planar (mesh p)) (hb : ClosedBoundary (mesh p))
    (hsym : ∀ p q, dist p q = dist q p) (hnn : ∀ p q, 0 ≤ dist p q) (hcol : ∀ p q r, collin p q r = collin p r q) (ht : 0 < tol) :
    ∃ y, Reach (cleanProg dbg eager 2 mesh dist collin tol) n 2 y ∧ step (cleanProg dbg eager 2 mesh dist collin tol) n p y = some .ub := by
  obtain ⟨sc, corner, fl, e, -, -⟩ := flagEdges_spec dbg hc hpl hb hsym hnn hcol ht
  have hpost : (cleanProg dbg eager 2 mesh dist collin tol).post p = .ok ([], ⟨sc, fl, [], []⟩) := by
    simp only [cleanProg, Res.bind_eq, Res.pure_eq, Res.assert_true dbg ht, Res.bind_ok, e, shares, hn, List.length_nil, List.range_zero, List.mapM_nil]
    simp [sendMasks, Res.bind_ok]
  have hnb : (cleanProg dbg eager 2 mesh dist collin tol).nbrs p = [] := hn
  have e1 : step (cleanProg dbg eager 2 mesh dist collin tol) n p (init _ _) =
      some (.ok ⟨setProc (fun _ => .start) p (.size 0 ⟨sc, fl, [], []⟩), fun _ _ => [], fun _ _ => []⟩) := by
    simp [step, init, hpost, hnb, sendAll]
  have r1 := Reach.step Reach.init hp e1
  have e2 : step (cleanProg dbg eager 2 mesh dist collin tol) n p ⟨setProc (fun _ => .start) p (.size 0 ⟨sc, fl, [], []⟩), fun _ _ => [], fun _ _ => []⟩ =
      some (.ok ⟨setProc (setProc (fun _ => .start) p (.size 0 ⟨sc, fl, [], []⟩)) p (.wait ⟨sc, fl, [], []⟩), fun _ _ => [], fun _ _ => []⟩) := by
    simp [step, setProc, hnb]
  refine ⟨_, Reach.step r1 hp e2, ?_⟩
  simp [step, setProc, hnb]

/-- C84 fails where the MPI library does not copy messages when they are sent: the size that is sent is a variable which no longer exists. -/
theorem C84_lifetime_fails (dbg : Bool) {n : Nat} {mesh : Nat → Tess R} {mate : Nat → Nat} {dist : List R → List R → K}
    {collin : List R → List R → List R → Bool} {tol : K} (hpair : Paired n mesh mate) {p : Nat} (hp : p < n) (hm : Cleanable (mesh p))
    (hsym : ∀ p q, dist p q = dist q p) (hnn : ∀ p q, 0 ≤ dist p q) (hcol : ∀ p q r, collin p q r = collin p r q) (ht : 0 < tol) :
    step (cleanProg dbg false 2 mesh dist collin tol) n p (init _ _) = some .ub := by
  obtain ⟨sc, fl, pm, es, h⟩ := ready dbg hm.consistent hm.comm hm.planar hm.boundary hsym hnn hcol ht (hpair.nbrs p hp) (hpair.lists p hp) hm.nodup
  obtain ⟨corner, e⟩ := h.flags
  have : (cleanProg dbg false 2 mesh dist collin tol).post p = .ub := by
    simp only [cleanProg, Res.bind_eq, Res.pure_eq, Res.assert_true dbg ht, Res.bind_ok, e, h.shares, hpair.nbrs p hp]
    simp
  simp [step, init, this]

/-- C84 fails for a process `q` with several neighbours: it sends the second and later of them a message that begins with the mask for its first neighbour. In a debug
build such a neighbour `p` never gets past its assertions. -/
theorem C84_several_neighbours_fails {n : Nat} {mesh : Nat → Tess R} {dist : List R → List R → K} {collin : List R → List R → List R → Bool} {tol : K}
    {p q a : Nat} {rest : List Nat} (hq : (mesh q).neighborDomains = a :: rest) (hpa : p ≠ a) (hp : q ∈ (mesh p).neighborDomains)
    (hc : Consistent 2 (mesh q)) (hcm : CommOK 2 (mesh q)) (hpl : Planar (mesh q)) (hb : ClosedBoundary (mesh q))
    (hn : ∀ l ∈ (mesh q).sharedNodes, l.Nodup) (hl : (mesh q).sharedNodes.length = (mesh q).neighborDomains.length)
    (hsm : (mesh q).neighborDomains.length * (4 + 4 * (mesh q).faces.length) < 2 ^ 31)
    (hsym : ∀ p q, dist p q = dist q p) (hnn : ∀ p q, 0 ≤ dist p q) (hcol : ∀ p q r, collin p q r = collin p r q) (ht : 0 < tol)
    {k : Nat} {y : Sys (ParState K) Serialize.Byte} (hr : Reach (cleanProg true true 2 mesh dist collin tol) n k y) (s : ParState K) : y.proc p ≠ .done s := by
  obtain ⟨k0, hk0⟩ := List.mem_iff_getElem?.1 hp
  obtain ⟨sc, corner, fl, s0, sh, _, _, e3, e4⟩ := post_begins true hq hpa hc hcm hpl hb hsym hnn hcol ht hn hl hsm
  obtain ⟨_, _, h⟩ := behind true hk0 e3 e4 hr
  intro e
  rw [e] at h
  exact absurd h.1 (by simp)

/-- C84: in a release build such a neighbour, if it finishes, has taken the mask for the first neighbour of `q` for its own. -/
theorem C84_several_neighbours_release_fails {n : Nat} {mesh : Nat → Tess R} {dist : List R → List R → K} {collin : List R → List R → List R → Bool} {tol : K}
    {p q a k0 : Nat} {rest : List Nat} (hq : (mesh q).neighborDomains = a :: rest) (hpa : p ≠ a) (hp : (mesh p).neighborDomains[k0]? = some q)
    (hc : Consistent 2 (mesh q)) (hcm : CommOK 2 (mesh q)) (hpl : Planar (mesh q)) (hb : ClosedBoundary (mesh q))
    (hn : ∀ l ∈ (mesh q).sharedNodes, l.Nodup) (hl : (mesh q).sharedNodes.length = (mesh q).neighborDomains.length)
    (hsm : (mesh q).neighborDomains.length * (4 + 4 * (mesh q).faces.length) < 2 ^ 31)
    (hsym : ∀ p q, dist p q = dist q p) (hnn : ∀ p q, 0 ≤ dist p q) (hcol : ∀ p q r, collin p q r = collin p r q) (ht : 0 < tol) :
    ∃ sc corner fl first others, flagEdges false 2 (mesh q) dist collin tol = .ok (sc, corner, fl) ∧
      shares false ((mesh q).nodes.length / 2) (mesh q) sc.keys fl.emask = .ok (first :: others) ∧
      ∀ k (y : Sys (ParState K) Serialize.Byte), Reach (cleanProg false true 2 mesh dist collin tol) n k y → ∀ s, y.proc p = .done s → s.recv[k0]? = some first.mask := by
  obtain ⟨sc, corner, fl, s0, sh, e1, e2, e3, e4⟩ := post_begins false hq hpa hc hcm hpl hb hsym hnn hcol ht hn hl hsm
  refine ⟨sc, corner, fl, s0, sh, e1, e2, fun k y hr s e => ?_⟩
  obtain ⟨_, _, h⟩ := behind false hp e3 e4 hr
  rw [e] at h
  exact h.2
end

/-! ### Examples -/

/-- The mesh `fan`, next to another below its straight side. -/
def fanUp : Tess Int := { fan with neighborDomains := [1], sharedNodes := [[0, 1, 2, 3]], sharedFaces := [[0, 3, 5]] }
/-- `fan` turned upside down. -/
def fanDown : Tess Int := { fan with nodes := [20,0, 11,0, 10,0, 0,0, 10,-10], neighborDomains := [0], sharedNodes := [[3, 2, 1, 0]], sharedFaces := [[5, 3, 0]] }
/-- Two processes. -/
def fans (p : Nat) : Tess Int := if p = 0 then fanUp else fanDown

instance {m : Tess R} {f a b : Nat} : Decidable (JoinsNodes m f a b) := inferInstanceAs (Decidable (_ ∨ _))

theorem two_lt {P : Nat → Prop} (h0 : P 0) (h1 : P 1) : ∀ p, p < 2 → P p := by
  intro p hp
  rcases p with _ | _ | p
  · exact h0
  · exact h1
  · omega

theorem cleanable_of (m : Tess Int) (h1 : Consistent 2 m) (h2 : CommOK 2 m) (h3 : ∀ F ∈ m.faces, F.length = 2 ∧ F.getD 0 0 ≠ F.getD 1 0)
    (h4 : ∀ f, f < m.faces.length → (cellsOf m f).length = 1 → ∀ n ∈ face m f, (boundaryFacesAt m n).length = 2) (h5 : (sharedN m).Nodup)
    (h6 : 4 + 4 * m.faces.length < 2 ^ 31) : Cleanable m := ⟨h1, h2, planar_of m h3, closedBoundary_of m h4, h5, h6⟩

theorem agree_of {m m' : Tess Int} (h1 : (sharedN m).length = (sharedN m').length)
    (h2 : ∀ i, i < (sharedN m).length → node 2 m (old (sharedN m) i) = node 2 m' (old (sharedN m') i)) (h3 : (sharedF m).length = (sharedF m').length)
    (h4 : ∀ k, k < (sharedF m).length → ∃ i, i < (sharedN m).length ∧ ∃ j, j < (sharedN m).length ∧
      (JoinsNodes m (old (sharedF m) k) (old (sharedN m) i) (old (sharedN m) j) ∧ JoinsNodes m' (old (sharedF m') k) (old (sharedN m') i) (old (sharedN m') j))) :
    Agree m m' :=
  ⟨h1, h2, h3, fun k hk => by obtain ⟨i, hi, j, hj, h⟩ := h4 k hk; exact ⟨i, j, hi, hj, h⟩⟩

theorem fans_cleanable : ∀ p, p < 2 → Cleanable (fans p) := by
  refine two_lt ?_ ?_
  · exact cleanable_of _ ⟨by decide, by decide, by decide, by decide, by decide, by decide, by decide, by decide⟩ ⟨by decide, by decide, by decide⟩
      (by decide) (by decide) (by decide) (by decide)
  · exact cleanable_of _ ⟨by decide, by decide, by decide, by decide, by decide, by decide, by decide, by decide⟩ ⟨by decide, by decide, by decide⟩
      (by decide) (by decide) (by decide) (by decide)
theorem fans_paired : Paired 2 fans (fun p => 1 - p) :=
  ⟨by decide, by decide, two_lt rfl rfl, two_lt rfl rfl⟩
theorem fans_agree : ∀ p, p < 2 → Agree (fans p) (fans (1 - p)) :=
  two_lt (agree_of (by decide) (by decide) (by decide) (by decide)) (agree_of (by decide) (by decide) (by decide) (by decide))
theorem fans_same : ∀ p, p < 2 → SameEdges (fans p) (fans (1 - p)) := by
  refine two_lt ?_ ?_
  · have : ∀ i, i < 4 → ∀ j, j < 4 → ((∃ f, f < (fans 0).faces.length ∧ JoinsNodes (fans 0) f (old (sharedN (fans 0)) i) (old (sharedN (fans 0)) j)) ↔
      ∃ f, f < (fans 1).faces.length ∧ JoinsNodes (fans 1) f (old (sharedN (fans 1)) i) (old (sharedN (fans 1)) j)) := by decide
    exact fun i j hi hj => this i hi j hj
  · have : ∀ i, i < 4 → ∀ j, j < 4 → ((∃ f, f < (fans 1).faces.length ∧ JoinsNodes (fans 1) f (old (sharedN (fans 1)) i) (old (sharedN (fans 1)) j)) ↔
      ∃ f, f < (fans 0).faces.length ∧ JoinsNodes (fans 0) f (old (sharedN (fans 0)) i) (old (sharedN (fans 0)) j)) := by decide
    exact fun i j hi hj => this i hi j hj

/-- By itself the upper process keeps the node at (10,0) and the lower one that at (11,0); together both keep (10,0). -/
example : (∃ y s t m m', Reach (cleanProg true true 2 fans manhattan onLine (1/5)) 2 10 y ∧ y.proc 0 = .done s ∧ y.proc 1 = .done t ∧
      finish true 2 (fans 0) s = .ok m ∧ finish true 2 (fans 1) t = .ok m' ∧ Agree m m' ∧
      m.nodes = [0,0, 10,0, 20,0, 10,10] ∧ m'.nodes = [20,0, 10,0, 0,0, 10,-10]) ∧
    ∃ m, cleanEdges true 2 (fans 1) manhattan onLine (1/5) = .ok m ∧ m.nodes = [20,0, 11,0, 0,0, 10,-10] := by
  obtain ⟨alone, mesh', own, tgt, an, af, kn, kf, h1, h2⟩ := C84_clean_together_partial true (n := 2) (mesh := fans) (mate := fun p => 1 - p) (dist := manhattan)
    (collin := onLine) (tol := 1/5) fans_paired fans_cleanable fans_agree fans_same manhattan_symm manhattan_nonneg onLine_symm (by decide +kernel)
  have k1 : (match runSched (cleanProg true true 2 fans manhattan onLine (1/5)) 2 [0, 1, 1, 1, 0, 0, 0, 1, 0, 1] (init _ _) with
    | some y => (match y.proc 0, y.proc 1 with
      | .done s, .done t => (match finish true 2 (fans 0) s, finish true 2 (fans 1) t with
        | .ok m, .ok m' => decide (m.nodes = [0,0, 10,0, 20,0, 10,10] ∧ m'.nodes = [20,0, 10,0, 0,0, 10,-10])
        | _, _ => false)
      | _, _ => false)
    | none => false) = true := by decide +kernel
  have k2 : (match cleanEdges true 2 (fans 1) manhattan onLine (1/5) with | .ok m => m.nodes | _ => []) = [20,0, 11,0, 0,0, 10,-10] := by decide +kernel
  constructor
  · cases hy : runSched (cleanProg true true 2 fans manhattan onLine (1/5)) 2 [0, 1, 1, 1, 0, 0, 0, 1, 0, 1] (init _ _) with
    | none => rw [hy] at k1; simp at k1
    | some y =>
      rw [hy] at k1
      simp only [] at k1
      have hreach := runSched_reach _ Reach.init hy
      have hd := (h1 _ y hreach).2.2.2
      cases e0 : y.proc 0 with
      | done s =>
        cases e1 : y.proc 1 with
        | done t =>
          rw [e0, e1] at k1
          dsimp only at k1
          rw [hd 0 s (by decide) e0, hd 1 t (by decide) e1] at k1
          simp only [decide_eq_true_eq] at k1
          exact ⟨y, s, t, mesh' 0, mesh' 1, hreach, e0, e1, hd 0 s (by decide) e0, hd 1 t (by decide) e1, (h2 0 (by decide)).2.2.2.2.1, k1⟩
        | _ => rw [e0, e1] at k1; simp at k1
      | _ => rw [e0] at k1; simp at k1
  · obtain ⟨⟨e, _⟩, _⟩ := h2 1 (by decide)
    rw [e] at k2
    exact ⟨_, e, k2⟩

example : step (cleanProg true false 2 fans manhattan onLine (1/5)) 2 0 (init _ _) = some .ub :=
  C84_lifetime_fails true fans_paired (by decide) (fans_cleanable 0 (by decide)) manhattan_symm manhattan_nonneg onLine_symm (by decide +kernel)

example : ∃ y, Reach (cleanProg true true 2 (fun _ => fan) manhattan onLine (1/5)) 2 2 y ∧
    step (cleanProg true true 2 (fun _ => fan) manhattan onLine (1/5)) 2 1 y = some .ub :=
  C84_no_neighbour_fails true true (by decide) rfl fan_consistent fan_planar fan_boundary manhattan_symm manhattan_nonneg onLine_symm (by decide +kernel)

/-- Three rectangles in a row on three processes: the middle one has two neighbours. -/
def row (p : Nat) : Tess Int :=
  { nodes := if p = 0 then [0,0, 10,0, 10,10, 0,10] else if p = 1 then [10,0, 20,0, 20,10, 10,10] else [20,0, 30,0, 30,10, 20,10]
    cells := [[0, 1, 2, 3]], faces := [[0,1], [1,2], [2,3], [3,0]], faceCells := [[0], [0], [0], [0]]
    neighborDomains := if p = 1 then [0, 2] else [1]
    sharedNodes := if p = 0 then [[1, 2]] else if p = 1 then [[0, 3], [1, 2]] else [[0, 3]]
    sharedFaces := if p = 0 then [[1]] else if p = 1 then [[3], [1]] else [[3]] }

example (k : Nat) (y : Sys (ParState ℚ) Serialize.Byte) (hr : Reach (cleanProg true true 2 row manhattan onLine (1/5)) 3 k y) (s : ParState ℚ) :
    y.proc 2 ≠ .done s :=
  C84_several_neighbours_fails (p := 2) (q := 1) (a := 0) (rest := [2]) rfl (by decide) (by decide)
    ⟨by decide, by decide, by decide, by decide, by decide, by decide, by decide, by decide⟩ ⟨by decide, by decide, by decide⟩
    (planar_of _ (by decide)) (closedBoundary_of _ (by decide)) (by decide) rfl (by decide) manhattan_symm manhattan_nonneg onLine_symm (by decide +kernel) hr s

/-- A schedule that brings the third process to its failing assertion. -/
example : (match runSched (cleanProg true true 2 row manhattan onLine (1/5)) 3 [0, 1, 2, 2, 0, 0, 1, 1, 1, 1] (init _ _) with
    | some y => (match step (cleanProg true true 2 row manhattan onLine (1/5)) 3 2 y with | some .abort => true | _ => false)
    | none => false) = true := by decide +kernel

example : ∃ sc corner fl first others, flagEdges false 2 (row 1) manhattan onLine (1/5) = .ok (sc, corner, fl) ∧
    shares false 4 (row 1) sc.keys fl.emask = .ok (first :: others) ∧
    ∀ k (y : Sys (ParState ℚ) Serialize.Byte), Reach (cleanProg false true 2 row manhattan onLine (1/5)) 3 k y → ∀ s, y.proc 2 = .done s →
      s.recv[0]? = some first.mask :=
  C84_several_neighbours_release_fails (p := 2) (q := 1) (a := 0) (rest := [2]) rfl (by decide) rfl
    ⟨by decide, by decide, by decide, by decide, by decide, by decide, by decide, by decide⟩ ⟨by decide, by decide, by decide⟩
    (planar_of _ (by decide)) (closedBoundary_of _ (by decide)) (by decide) rfl (by decide) manhattan_symm manhattan_nonneg onLine_symm (by decide +kernel)

/-- A square whose lower side has a node at (10,0), joined by a short face to the inner node at (10,1); and the square to the right of it. -/
def rims (p : Nat) : Tess Int := if p = 0 then
  { nodes := [0,0, 20,0, 20,20, 0,20, 10,1, 10,0]
    cells := [[0, 5, 6, 4], [1, 2, -8, -6], [7, 3, -7]]
    faces := [[0,5], [5,1], [1,2], [2,3], [3,0], [5,4], [4,3], [4,2]]
    faceCells := [[0], [1], [1], [2], [0], [0, -2], [0, -3], [2, -2]]
    neighborDomains := [1], sharedNodes := [[1, 2]], sharedFaces := [[2]] }
  else
  { nodes := [20,0, 40,0, 40,20, 20,20]
    cells := [[0, 1, 2, 3]], faces := [[0,1], [1,2], [2,3], [3,0]], faceCells := [[0], [0], [0], [0]]
    neighborDomains := [0], sharedNodes := [[0, 3]], sharedFaces := [[3]] }

theorem rims_cleanable : ∀ p, p < 2 → Cleanable (rims p) := by
  refine two_lt ?_ ?_
  · exact cleanable_of _ ⟨by decide, by decide, by decide, by decide, by decide, by decide, by decide, by decide⟩ ⟨by decide, by decide, by decide⟩
      (by decide) (by decide) (by decide) (by decide)
  · exact cleanable_of _ ⟨by decide, by decide, by decide, by decide, by decide, by decide, by decide, by decide⟩ ⟨by decide, by decide, by decide⟩
      (by decide) (by decide) (by decide) (by decide)

/-- C84 fails: cleaning together can move a boundary node into the mesh, which cleaning alone never does (`C51_matching`). Here the node at (10,0) gives
way to (10,1), and the lower side of the square is dented. -/
theorem C84_boundary_fails : (∀ p, p < 2 → Cleanable (rims p)) ∧ Paired 2 rims (fun p => 1 - p) ∧ (∀ p, p < 2 → Agree (rims p) (rims (1 - p))) ∧
    (∃ m, cleanEdges true 2 (rims 0) manhattan onLine (1/5) = .ok m ∧ m.nodes = [0,0, 20,0, 20,20, 0,20, 10,0]) ∧
    ∃ y s m, Reach (cleanProg true true 2 rims manhattan onLine (1/5)) 2 10 y ∧ y.proc 0 = .done s ∧ finish true 2 (rims 0) s = .ok m ∧
      m.nodes = [0,0, 20,0, 20,20, 0,20, 10,1] := by
  have k1 : (match runSched (cleanProg true true 2 rims manhattan onLine (1/5)) 2 [0, 1, 1, 1, 0, 0, 0, 1, 0, 1] (init _ _) with
    | some y => (match y.proc 0 with
      | .done s => (match finish true 2 (rims 0) s with
        | .ok m => decide (m.nodes = [0,0, 20,0, 20,20, 0,20, 10,1])
        | _ => false)
      | _ => false)
    | none => false) = true := by decide +kernel
  have k2 : (match cleanEdges true 2 (rims 0) manhattan onLine (1/5) with | .ok m => m.nodes | _ => []) = [0,0, 20,0, 20,20, 0,20, 10,0] := by decide +kernel
  refine ⟨rims_cleanable, ⟨by decide, by decide, two_lt rfl rfl, two_lt rfl rfl⟩,
    two_lt (agree_of (by decide) (by decide) (by decide) (by decide)) (agree_of (by decide) (by decide) (by decide) (by decide)), ?_, ?_⟩
  · cases e : cleanEdges true 2 (rims 0) manhattan onLine (1/5) with
    | ok m => rw [e] at k2; exact ⟨m, rfl, k2⟩
    | abort => rw [e] at k2; simp at k2
    | ub => rw [e] at k2; simp at k2
  · cases hy : runSched (cleanProg true true 2 rims manhattan onLine (1/5)) 2 [0, 1, 1, 1, 0, 0, 0, 1, 0, 1] (init _ _) with
    | none => rw [hy] at k1; simp at k1
    | some y =>
      rw [hy] at k1
      dsimp only at k1
      cases e0 : y.proc 0 with
      | done s =>
        rw [e0] at k1
        dsimp only at k1
        cases e1 : finish true 2 (rims 0) s with
        | ok m => rw [e1] at k1; exact ⟨y, s, m, runSched_reach _ Reach.init hy, e0, e1, by simpa using k1⟩
        | abort => rw [e1] at k1; simp at k1
        | ub => rw [e1] at k1; simp at k1
      | _ => rw [e0] at k1; simp at k1
end Verif.Editor
