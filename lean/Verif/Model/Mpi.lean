import Verif.Model.Cxx
/-
The point-to-point exchanges of `/repo/src/DistributedTessellator.cc` (L255-306 and L630-734), both of the same shape: every process posts non-blocking sends to
all its neighbours (a size, then perhaps the data), receives from its neighbours one after the other with blocking receives (the size, then perhaps the data) and
waits for its sends to complete. The processes run concurrently: a step of the system is a step of any one process that is not blocked.

MPI: messages with the same sender, receiver and tag arrive in the order sent (one queue per sender, receiver and tag); a receive blocks until there is a message.
A message may arrive any time after it was sent: later arrival is later execution of the receiving step. A send completes at the latest when it is received, and
`MPI_Waitall` is taken to block until all messages of the process have been received, the least favourable case the standard allows.
-/
namespace Verif.Mpi
open Verif

/-- The parts of an exchange that differ: `σ` is the local state of a process, `β` the type of data elements. -/
structure Prog (σ β : Type) where
  /-- `mesh.neighborDomains` on each process. -/
  nbrs : Nat → List Nat
  /-- The sending loop of a process: for each neighbour the size announced and the data, if any is sent; and the local state. -/
  post : Nat → Res (List (Nat × Option (List β)) × σ)
  /-- What a process does with the size received from its `k`-th neighbour; the result says whether it goes on to receive data. -/
  onSize : Nat → σ → Nat → Nat → Res Bool
  /-- What a process does with the data received from its `k`-th neighbour, which announced the given size. -/
  onData : Nat → σ → Nat → Nat → List β → Res σ

/-- Where a process stands: before the sends, before receiving the size from neighbour `k`, before receiving data from neighbour `k`, in `MPI_Waitall`, past it. -/
inductive PS (σ : Type) where
  | start
  | size (k : Nat) (s : σ)
  | data (k sz : Nat) (s : σ)
  | wait (s : σ)
  | done (s : σ)

/-- All processes, and the messages sent and not yet received: `sizeQ p q` and `dataQ p q` from `p` to `q`. -/
structure Sys (σ β : Type) where
  proc : Nat → PS σ
  sizeQ : Nat → Nat → List Nat
  dataQ : Nat → Nat → List (List β)

/-- Before the exchange. -/
def init (σ β : Type) : Sys σ β := ⟨fun _ => .start, fun _ _ => [], fun _ _ => []⟩

/-- One more message at the end of the queue from `p` to `q`. -/
def enqueue (Q : Nat → Nat → List α) (p q : Nat) (x : α) : Nat → Nat → List α := fun a b => if a = p ∧ b = q then Q a b ++ [x] else Q a b

/-- The first message from `p` to `q` removed. -/
def dequeue (Q : Nat → Nat → List α) (p q : Nat) : Nat → Nat → List α := fun a b => if a = p ∧ b = q then (Q a b).tail else Q a b

/-- Process `p` moves to `x`. -/
def setProc (P : Nat → PS σ) (p : Nat) (x : PS σ) : Nat → PS σ := fun a => if a = p then x else P a

/-- The sends of process `p` (L257-270, L658-680): one turn for each neighbour. -/
def sendAll (p : Nat) : List Nat → List (Nat × Option (List β)) → (Nat → Nat → List Nat) → (Nat → Nat → List (List β)) →
    (Nat → Nat → List Nat) × (Nat → Nat → List (List β))
  | q :: qs, (sz, some c) :: ms, S, T => sendAll p qs ms (enqueue S p q sz) (enqueue T p q c)
  | q :: qs, (sz, none) :: ms, S, T => sendAll p qs ms (enqueue S p q sz) T
  | _, _, S, T => (S, T)

/-- A step of process `p` of `n`: `none` means that it is blocked or has finished. Sending to a process that does not exist is an MPI error, which ends the program.
`&sendRequests.front()` (L305, L733) is undefined if nothing was sent. -/
def step (P : Prog σ β) (n p : Nat) (y : Sys σ β) : Option (Res (Sys σ β)) :=
  match y.proc p with
  | .start => some do
      let (ms, s) ← P.post p
      if ∀ q ∈ P.nbrs p, q < n then
        let q := sendAll p (P.nbrs p) ms y.sizeQ y.dataQ
        return ⟨setProc y.proc p (.size 0 s), q.1, q.2⟩
      else .abort
  | .size k s =>
    match (P.nbrs p)[k]? with
    | none => some (.ok { y with proc := setProc y.proc p (.wait s) })
    | some q =>
      match y.sizeQ q p with
      | [] => none
      | sz :: _ => some do
        let more ← P.onSize p s k sz
        return { y with proc := setProc y.proc p (if more then .data k sz s else .size (k + 1) s), sizeQ := dequeue y.sizeQ q p }
  | .data k sz s =>
    match (P.nbrs p)[k]? with
    | none => none
    | some q =>
      match y.dataQ q p with
      | [] => none
      | c :: _ => some do
        let s ← P.onData p s k sz c
        return { y with proc := setProc y.proc p (.size (k + 1) s), dataQ := dequeue y.dataQ q p }
  | .wait s =>
    if P.nbrs p = [] then some .ub
    else if ∀ q ∈ P.nbrs p, y.sizeQ p q = [] ∧ y.dataQ p q = [] then some (.ok { y with proc := setProc y.proc p (.done s) })
    else none
  | .done _ => none

/-- `y` can be reached by `k` steps, of any processes in any order. -/
inductive Reach (P : Prog σ β) (n : Nat) : Nat → Sys σ β → Prop where
  | init : Reach P n 0 (init σ β)
  | step {k p : Nat} {y y' : Sys σ β} : Reach P n k y → p < n → step P n p y = some (.ok y') → Reach P n (k + 1) y'
end Verif.Mpi
