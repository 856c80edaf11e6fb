import Mathlib.Data.List.Forall2
/- Vocabulary for the tolerant point map: when two points match, and what a history of answers has to satisfy. -/
namespace Verif.PointMap

/-- Two points (lists of coordinates) match: they differ by at most `tol` in every coordinate. -/
def Near (tol : Int) (p q : List Int) : Prop := List.Forall₂ (fun x y => x - tol ≤ y ∧ y ≤ x + tol) p q

/-- `ids` are correct answers to the queries `qs`; `reps[k]` is the position of the query that created the id `k` (its point is the stored one). -/
structure Answers (tol : Int) (qs : List (List Int)) (ids reps : List Nat) : Prop where
  /-- one answer per query -/
  length : ids.length = qs.length
  /-- ids are created in order … -/
  incr : reps.Pairwise (· < ·)
  /-- … and the query that creates the id `k` is answered `k` -/
  first : ∀ (k r : Nat), reps[k]? = some r → ids[r]? = some k
  /-- every answer is an id created by now, and the stored point of that id matches the query -/
  near : ∀ (t k : Nat) (p : List Int), ids[t]? = some k → qs[t]? = some p →
    ∃ (r : Nat) (q : List Int), reps[k]? = some r ∧ r ≤ t ∧ qs[r]? = some q ∧ Near tol p q
  /-- an id is created only when no point stored before matches -/
  fresh : ∀ (j k r t : Nat) (p q : List Int), j < k → reps[j]? = some r → reps[k]? = some t → qs[r]? = some q → qs[t]? = some p → ¬ Near tol p q
  /-- asking again for a stored point returns its id -/
  again : ∀ (k r t : Nat), reps[k]? = some r → r ≤ t → t < qs.length → qs[t]? = qs[r]? → ids[t]? = some k

end Verif.PointMap
