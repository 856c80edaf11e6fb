import Verif.Model.Serialize
import Verif.Model.Mesh
/-
Model of `/repo/src/checkDistributedTessellation.hh`: the check that the communication lists of all processes fit together. All processes run it together and
communicate by collective operations only (`MPI_Bcast`, `MPI_Allreduce`).
-/
namespace Verif.Check
open Verif Verif.Mesh
variable {R κ V α β : Type}

/-- A process that communicates by collective operations: finished, failed (`ub`/`abort`), about to take part in a broadcast of `count` items from `root` (`v` is its
own buffer, which matters on the root only), or about to take part in a reduction to the minimum. -/
inductive Coll (V α : Type) where
  | done (a : α)
  | ub
  | abort
  | bcast (root count : Nat) (v : V) (k : V → Coll V α)
  | reduceMin (v : Nat) (k : Nat → Coll V α)

/-- Sequencing. -/
def Coll.bind : Coll V α → (α → Coll V β) → Coll V β
  | .done a, f => f a
  | .ub, _ => .ub
  | .abort, _ => .abort
  | .bcast r c v k, f => .bcast r c v fun x => (k x).bind f
  | .reduceMin v k, f => .reduceMin v fun x => (k x).bind f

/-- A local computation. -/
def Coll.local (r : Res α) (f : α → Coll V β) : Coll V β :=
  match r with
  | .ok a => f a
  | .ub => .ub
  | .abort => .abort

/-- The processes `0 … n-1` run together to their ends. A collective operation takes place when all of them take part in the same one with the same root and count
(this is what MPI requires); the order in which they arrive does not matter. A state in which some processes wait for different operations, or have finished while
others wait, has no end. -/
inductive Ends (n : Nat) : (Nat → Coll V α) → (Nat → α) → Prop where
  | done {ps : Nat → Coll V α} {a : Nat → α} : (∀ p, p < n → ps p = .done (a p)) → Ends n ps a
  | bcast {ps : Nat → Coll V α} {a : Nat → α} {r c : Nat} {v : Nat → V} {k : Nat → V → Coll V α} : r < n → (∀ p, p < n → ps p = .bcast r c (v p) (k p)) →
    Ends n (fun p => k p (v r)) a → Ends n ps a
  | reduceMin {ps : Nat → Coll V α} {a : Nat → α} {v : Nat → Nat} {k : Nat → Nat → Coll V α} {m : Nat} : (∀ p, p < n → ps p = .reduceMin (v p) (k p)) →
    (∃ p, p < n ∧ v p = m) → (∀ p, p < n → m ≤ v p) → Ends n (fun p => k p m) a → Ends n ps a

/-- The processes reach a state in which one of them has undefined behaviour. -/
inductive Fails (n : Nat) : (Nat → Coll V α) → Prop where
  | ub {ps : Nat → Coll V α} {p : Nat} : p < n → ps p = .ub → Fails n ps
  | bcast {ps : Nat → Coll V α} {r c : Nat} {v : Nat → V} {k : Nat → V → Coll V α} : r < n → (∀ p, p < n → ps p = .bcast r c (v p) (k p)) →
    Fails n (fun p => k p (v r)) → Fails n ps
  | reduceMin {ps : Nat → Coll V α} {v : Nat → Nat} {k : Nat → Nat → Coll V α} {m : Nat} : (∀ p, p < n → ps p = .reduceMin (v p) (k p)) →
    (∃ p, p < n ∧ v p = m) → (∀ p, p < n → m ≤ v p) → Fails n (fun p => k p m) → Fails n ps

/-- What is sent: a number, a list of numbers, a list of hashes, or a string. -/
inductive Msg (κ : Type) where
  | num (n : Nat)
  | nums (l : List Nat)
  | pts (l : List κ)
  | str (s : List Char)

/-- The number received. Receivers always expect what the root sends. -/
def Msg.toNum : Msg κ → Nat | .num n => n | _ => 0
/-- The list of numbers received. -/
def Msg.toNums : Msg κ → List Nat | .nums l => l | _ => []
/-- The hashes received. -/
def Msg.toPts : Msg κ → List κ | .pts l => l | _ => []
/-- The string received. -/
def Msg.toStr : Msg κ → List Char | .str s => s | _ => []

/-- The disagreements that can be reported. -/
inductive Err (κ : Type) where
  | who
  | notExpected (send recv : Nat)
  | count (send recv theirs mine : Nat)
  | hashes (send recv : Nat) (l : List (κ × κ))
  | missing (send recv : Nat)
  | nothing (send recv : Nat)
  | number (send recv : Nat) (common : List κ) (mine : Nat)
  | wrong (send recv : Nat) (all common : List κ)

/-- `reduceToMaxString`, L25-44. -/
def reduceMax (dbg : Bool) (rank n : Nat) (x : List Char) : Coll (Msg κ) (List Char) :=
  .reduceMin (if x.length = 0 then n else rank) fun bad =>
    if bad = n then .done x
    else .bcast bad 1 (.num x.length) fun size =>
      .local (Res.assert dbg (0 < size.toNum)) fun _ =>
      .bcast bad size.toNum (.str (Serialize.resize x size.toNum '0')) fun s => .done s.toStr

/-- `std::binary_search`, undefined for a list that is not sorted. -/
def binarySearch (l : List Nat) (x : Nat) : Res Bool := if l.Pairwise (· ≤ ·) then .ok (decide (x ∈ l)) else .ub

/-- L290-303, for the processes that remain to send. -/
def whoLoop (txt : Err κ → List Char) (rank : Nat) (nd : List Nat) : List Nat → List Char → Coll (Msg κ) (List Char)
  | [], res => .done res
  | s :: rest, res => .bcast s 1 (.num nd.length) fun num =>
    if 0 < num.toNum then
      .bcast s num.toNum (.nums (Serialize.resize nd num.toNum 0)) fun other =>
      .local (do
        let a ← binarySearch other.toNums rank
        let b ← binarySearch nd s
        return if a = b then res else txt .who) fun res => whoLoop txt rank nd rest res
    else whoLoop txt rank nd rest res

variable [DecidableEq κ] [LT κ] [DecidableLT κ]

/-- L101-128: what the receiver finds. `k` is the loop variable of the sender, used by mistake in the text on L111. -/
def compare (txt : Err κ → List Char) (rank : Nat) (hashes : List κ) (nd : List Nat) (ids : List (List Nat)) (s k : Nat) (recv : List κ) : Res (List Char) :=
  match nd.idxOf? s with
  | none => .ok (txt (.notExpected s rank))
  | some kk => do
    let l ← rd ids kk
    if recv.length ≠ l.length then do
      let l' ← rd ids k
      return txt (.count s rank recv.length l'.length)
    else do
      let mine ← l.mapM fun i => rd hashes i
      return if recv = mine then [] else txt (.hashes s rank (recv.zip mine))

/-- L70-129: the neighbours `ks` of process `s` that remain. The size of the buffer is the number of hashes in it; hashes are transferred as they are (the encoding is
the subject of C01-C06). A broadcast fills the buffer of every process, so the other processes' `recvProc`, which they have not set, does not matter. The loop L115-125
compares element by element up to the first difference. -/
def pairLoop (dbg : Bool) (txt : Err κ → List Char) (rank : Nat) (hashes : List κ) (nd : List Nat) (ids : List (List Nat)) (s : Nat) :
    List Nat → List Char → Coll (Msg κ) (List Char)
  | [], res => .done res
  | k :: ks, res =>
    .local (if rank = s then rd nd k else .ok 0) fun q =>
    .bcast s 1 (.num q) fun q =>
    .local (if rank = s then do
      let l ← rd ids k
      l.mapM fun i => do
        Res.assert dbg (i < hashes.length)
        rd hashes i
      else .ok []) fun mine =>
    .bcast s 1 (.num mine.length) fun size =>
    .bcast s size.toNum (.pts mine) fun recv =>
    .local (if rank = q.toNum ∧ res = [] then compare txt rank hashes nd ids s k recv.toPts else .ok res) fun res =>
    pairLoop dbg txt rank hashes nd ids s ks res

/-- `checkConsistentCommInfo`, L50-140, for the senders that remain. -/
def commInfo (dbg : Bool) (txt : Err κ → List Char) (label : List Char) (rank n : Nat) (hashes : List κ) (nd : List Nat) (ids : List (List Nat)) :
    List Nat → List Char → Coll (Msg κ) (List Char)
  | [], res => .done res
  | s :: rest, res => .bcast s 1 (.num nd.length) fun num =>
    (pairLoop dbg txt rank hashes nd ids s (List.range num.toNum) res).bind fun res =>
    (reduceMax dbg rank n res).bind fun res =>
    if res ≠ [] then .done (label ++ " : ".toList ++ res) else commInfo dbg txt label rank n hashes nd ids rest res

/-- `std::set_intersection`. -/
def inter : List κ → List κ → List κ
  | [], _ => []
  | _ :: _, [] => []
  | a :: l, b :: m => if a < b then inter l (b :: m) else if b < a then inter (a :: l) m else a :: inter l m
termination_by l m => l.length + m.length

/-- L183-249: what a process finds about the process `s`, whose sorted hashes it has received. `srt` is `std::sort`. -/
def found (txt : Err κ → List Char) (srt : List κ → List κ) (rank : Nat) (hashes : List κ) (nd : List Nat) (ids : List (List Nat)) (noEmpty : Bool) (s : Nat)
    (other : List κ) : Res (List Char) :=
  let common := inter (srt hashes) other
  match nd.idxOf? s with
  | none => .ok (if 0 < common.length then txt (.missing s rank) else [])
  | some k =>
    if noEmpty = true ∧ common.length = 0 then .ok (txt (.nothing s rank))
    else if 0 < common.length then do
      let l ← rd ids k
      if l.length ≠ common.length then return txt (.number s rank common l.length)
      else do
        let mine ← l.mapM fun i => rd hashes i
        return if srt mine ≠ common then txt (.wrong s rank (srt hashes) common) else []
    else .ok []

/-- `checkAllSharedElementsFound`, L147-258, for the senders that remain. The buffer size is the number of hashes. -/
def allFound (dbg : Bool) (txt : Err κ → List Char) (srt : List κ → List κ) (label : List Char) (rank n : Nat) (hashes : List κ) (nd : List Nat) (ids : List (List Nat))
    (noEmpty : Bool) : List Nat → List Char → Coll (Msg κ) (List Char)
  | [], res => .done res
  | s :: rest, res => .bcast s 1 (.num (srt hashes).length) fun size =>
    .bcast s size.toNum (.pts (srt hashes)) fun other =>
    .local (if rank ≠ s ∧ res = [] then found txt srt rank hashes nd ids noEmpty s other.toPts else .ok res) fun res =>
    (reduceMax dbg rank n res).bind fun res =>
    if res ≠ [] then .done (label ++ " : ".toList ++ res) else allFound dbg txt srt label rank n hashes nd ids noEmpty rest res

/-- `checkDistributedTessellation`, L269-329. `key` hashes a position; it depends on the bounding box, which is the same on all processes. The face checks are
commented out. -/
def check (dbg : Bool) (txt : Err κ → List Char) (srt : List κ → List κ) (D n : Nat) (key : List R → κ) (rank : Nat) (m : Tess R) : Coll (Msg κ) (List Char) :=
  (whoLoop txt rank m.neighborDomains (List.range n) []).bind fun res =>
  (reduceMax dbg rank n res).bind fun res =>
  .local (do
    Res.assert dbg (m.nodes.length % D = 0)
    (List.range (m.nodes.length / D)).mapM fun i => do
      let c ← (List.range D).mapM fun k => rd m.nodes (D * i + k)
      return key c) fun hashes =>
  (if res = [] then commInfo dbg txt "Node".toList rank n hashes m.neighborDomains m.sharedNodes (List.range n) res else .done res).bind fun res =>
  (if res = [] then allFound dbg txt srt "Node".toList rank n hashes m.neighborDomains m.sharedNodes true (List.range n) res else .done res).bind fun res =>
  .done (if res = [] then "ok".toList else res)
end Verif.Check
