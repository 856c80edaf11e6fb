import Verif.Props.Orphanage
import Verif.Spec.OrphanageArea
import Mathlib.Tactic.LinearCombination
/-
C108: the area of the polygon that is left.
-/
namespace Verif.Props
open Verif Verif.Orphanage Verif.Geom

/-- The inner points of a path from `p` at which the path turns. -/
def turns (p : V2 Int) : List (V2 Int) → List (V2 Int)
  | q :: r :: t => if exactTest p q r then turns q (r :: t) else q :: turns q (r :: t)
  | _ => []

theorem sweep_turns : ∀ (t : List (V2 Int)) (a p q last : V2 Int), List.IsChain (· ≠ ·) (p :: q :: t) → exactTest a p q = true → (q :: t).getLast? = some last →
    sweep (a :: turns p (q :: t) ++ [last]) = (a.x * p.y - p.x * a.y) + sweep (p :: q :: t)
  | [], a, p, q, last, _, h, hl => by
    simp only [List.getLast?_singleton, Option.some.injEq] at hl
    subst hl
    simp only [exactTest, decide_eq_true_eq] at h
    simp only [turns, sweep, List.cons_append, List.nil_append]
    linear_combination -h
  | r :: t, a, p, q, last, hd, h, hl => by
    obtain ⟨hpq, hd'⟩ := List.isChain_cons_cons.1 hd
    have hl' : (r :: t).getLast? = some last := by simpa [List.getLast?_cons_cons] using hl
    simp only [exactTest, decide_eq_true_eq] at h
    rw [turns]
    split
    · rename_i hc
      simp only [exactTest, decide_eq_true_eq] at hc
      have key : exactTest a q r = true := by
        simp only [exactTest, decide_eq_true_eq]
        have hx : (q.x - p.x) * ((q.x - a.x) * (r.y - a.y) - (q.y - a.y) * (r.x - a.x)) = 0 := by
          linear_combination (q.x - a.x) * hc + (r.x - q.x) * h
        have hy : (q.y - p.y) * ((q.x - a.x) * (r.y - a.y) - (q.y - a.y) * (r.x - a.x)) = 0 := by
          linear_combination (q.y - a.y) * hc + (r.y - q.y) * h
        rcases mul_eq_zero.1 hx with h1 | h1
        · rcases mul_eq_zero.1 hy with h2 | h2
          · exact absurd (by cases p; cases q; simp_all; omega) hpq
          · exact h2
        · exact h1
      rw [sweep_turns t a q r last hd' key hl']
      simp only [sweep]
      linear_combination -h
    · have key : exactTest q q r = true := by simp [exactTest]
      have := sweep_turns t q q r last hd' key hl'
      simp only [List.cons_append] at this ⊢
      rw [sweep, this]
      simp only [sweep]
      linear_combination -h

theorem sweep_append : ∀ (l r : List (V2 Int)) (p : V2 Int), sweep (l ++ p :: r) = sweep (l ++ [p]) + sweep (p :: r)
  | [], r, p => by simp [sweep]
  | [a], r, p => by simp [sweep]
  | a :: b :: l, r, p => by
    have := sweep_append (b :: l) r p
    simp only [List.cons_append, sweep] at this ⊢
    linear_combination this

theorem area2_rotate (x y : List (V2 Int)) : area2 (x ++ y) = area2 (y ++ x) := by
  have one : ∀ (p : V2 Int) (r : List (V2 Int)), area2 (p :: r) = area2 (r ++ [p]) := by
    intro p r
    cases r with
    | nil => rfl
    | cons q r =>
      have e : area2 (q :: r ++ [p]) = sweep ((q :: r) ++ p :: [q]) := by simp [area2]
      rw [e, sweep_append]
      simp only [area2, List.cons_append, sweep]
      ring
  induction x generalizing y with
  | nil => simp
  | cons p x ih =>
    rw [List.cons_append, one, List.append_assoc, ih (y ++ [p]), List.append_assoc]; rfl

/-- The values at the chosen numbers among the `m` numbers from `s` on. -/
def chosen (c : Nat → Bool) (v : Nat → V2 Int) (s m : Nat) : List (V2 Int) := ((List.range' s m).filter c).map v

theorem area2_chosen {c : Nat → Bool} {v : Nat → V2 Int} {n : Nat} (hc : ∀ i, c (i + n) = c i) (hv : ∀ i, v (i + n) = v i) (s : Nat) :
    area2 (chosen c v s n) = area2 (chosen c v 0 n) := by
  induction s with
  | zero => rfl
  | succ s ih =>
    rw [← ih]
    cases n with
    | zero => rfl
    | succ n =>
      have e1 : List.range' s (n + 1) = [s] ++ List.range' (s + 1) n := rfl
      have e2 : List.range' (s + 1) (n + 1) = List.range' (s + 1) n ++ [s + (n + 1)] := by
        rw [List.range'_concat]; congr 2; omega
      unfold chosen
      rw [e1, e2, List.filter_append, List.filter_append, List.map_append, List.map_append, area2_rotate]
      congr 2
      rw [List.filter_singleton, List.filter_singleton, hc]
      cases c s <;> simp [hv]

theorem turns_chosen (f : Nat → V2 Int) : ∀ (m s : Nat), turns (f s) ((List.range' (s + 1) (m + 1)).map f) =
    chosen (fun i => !exactTest (f i) (f (i + 1)) (f (i + 2))) (fun i => f (i + 1)) s m
  | 0, s => by simp [turns, chosen]
  | m + 1, s => by
    have ih := turns_chosen f m (s + 1)
    have e : (List.range' (s + 1) (m + 1 + 1)).map f = f (s + 1) :: f (s + 2) :: (List.range' (s + 3) m).map f := by
      simp [List.range'_succ]
    have e' : (List.range' (s + 1 + 1) (m + 1)).map f = f (s + 2) :: (List.range' (s + 3) m).map f := by simp [List.range'_succ]
    rw [e'] at ih
    rw [e, turns, ih]
    unfold chosen
    rw [List.range'_succ, List.filter_cons]
    cases exactTest (f s) (f (s + 1)) (f (s + 2)) <;> simp

theorem chain_range {f : Nat → V2 Int} (h : ∀ i, f i ≠ f (i + 1)) : ∀ (m s : Nat), List.IsChain (· ≠ ·) ((List.range' s m).map f)
  | 0, s => by simp
  | 1, s => by simp
  | m + 2, s => by
    have ih := chain_range h (m + 1) (s + 1)
    rw [List.range'_succ, List.map_cons] at ih ⊢
    rw [List.range'_succ, List.map_cons]
    exact List.isChain_cons_cons.2 ⟨h s, ih⟩

/-- Without the points at which a closed path does not turn, its area is the same, if it turns anywhere and never stands still. -/
theorem area2_turns {f : Nat → V2 Int} {n i0 : Nat} (hf : ∀ i, f (i + n) = f i) (hne : ∀ i, f i ≠ f (i + 1)) (hi : exactTest (f i0) (f (i0 + 1)) (f (i0 + 2)) = false) (hn : 0 < n) :
    area2 (chosen (fun i => !exactTest (f i) (f (i + 1)) (f (i + 2))) (fun i => f (i + 1)) 0 n) = area2 ((List.range' 0 n).map f) := by
  have hf1 : ∀ i k, f (i + n + k) = f (i + k) := fun i k => by rw [Nat.add_right_comm, hf]
  rw [← area2_chosen (s := i0) (by intro i; simp only [hf, hf1]) (by intro i; simp only [hf1])]
  have all : ∀ s, chosen (fun _ => true) f s n = (List.range' s n).map f := fun s => by simp [chosen]
  rw [← all 0, ← area2_chosen (c := fun _ => true) (s := i0 + 1) (by simp) hf, all]
  obtain ⟨m, rfl⟩ : ∃ m, n = m + 1 := ⟨n - 1, by omega⟩
  have e1 : chosen (fun i => !exactTest (f i) (f (i + 1)) (f (i + 2))) (fun i => f (i + 1)) i0 (m + 1) = f (i0 + 1) :: turns (f (i0 + 1)) ((List.range' (i0 + 1 + 1) (m + 1)).map f) := by
    rw [turns_chosen]
    unfold chosen
    rw [List.range'_succ, List.filter_cons]
    simp [hi]
  have e2 : (List.range' (i0 + 1 + 1) (m + 1)).map f = f (i0 + 2) :: (List.range' (i0 + 3) m).map f := by simp [List.range'_succ]
  have hch := chain_range hne (m + 2) (i0 + 1)
  rw [List.range'_succ, List.map_cons, e2] at hch
  have hlast : ((List.range' (i0 + 1 + 1) (m + 1)).map f).getLast? = some (f (i0 + 1)) := by
    rw [List.range'_concat, List.map_append, List.map_singleton, List.getLast?_concat, ← hf (i0 + 1)]
    congr 2; omega
  rw [e2] at hlast
  have key := sweep_turns _ (f (i0 + 1)) (f (i0 + 1)) (f (i0 + 2)) (f (i0 + 1)) hch (by simp [exactTest]) hlast
  rw [e1, e2]
  have e3 : (List.range' (i0 + 1) (m + 1)).map f ++ [f (i0 + 1)] = f (i0 + 1) :: (List.range' (i0 + 1 + 1) (m + 1)).map f := by
    have e4 : [f (i0 + 1)] = [i0 + 1 + (m + 1)].map f := by rw [List.map_singleton, hf]
    have e5 : List.range' (i0 + 1) (m + 1) ++ [i0 + 1 + (m + 1)] = (i0 + 1) :: List.range' (i0 + 1 + 1) (m + 1) := by
      rw [← List.range'_succ, List.range'_concat (n := m + 1)]; congr 2; omega
    rw [e4, ← List.map_append, e5, List.map_cons]
  rw [area2, key, ← e2, ← e3, List.range'_succ, List.map_cons, area2]
  ring

/-- With an exact test in place of the library's, the area of a polygon is kept, if it has a corner and no point follows itself. -/
theorem C108_area_partial {plc : IPlc} {n i0 : Nat} {id : Nat → Nat} {P : Nat → V2 Int} (h : Loop plc.points plc.facets n id P) (hne : ∀ i < n, P i ≠ P ((i + 1) % n))
    (h0 : i0 < n) (hc : exactTest (P i0) (P ((i0 + 1) % n)) (P ((i0 + 2) % n)) = false) : ∃ kept : List (V2 Int),
      removeCollinearWith exactTest false plc = .ok ⟨flat kept, (List.range kept.length).map fun i => [Int.ofNat i, Int.ofNat ((i + 1) % kept.length)], []⟩ ∧
      area2 kept = area2 ((List.range n).map P) := by
  obtain ⟨kept, hk, hr⟩ := C108_corners_partial exactTest h
  refine ⟨kept, hr, ?_⟩
  have hn : 0 < n := by omega
  have key := area2_turns (f := fun i => P (i % n)) (n := n) (i0 := i0) (by simp) (by
    intro i
    have := hne (i % n) (Nat.mod_lt _ hn)
    rwa [Nat.mod_add_mod] at this) (by simpa [Nat.mod_eq_of_lt h0] using hc) hn
  have e1 : kept = chosen (fun i => !exactTest (P (i % n)) (P ((i + 1) % n)) (P ((i + 2) % n))) (fun i => P ((i + 1) % n)) 0 n := by
    rw [hk, chosen, ← List.range_eq_range']
    congr 1
    apply List.filter_congr
    intro i hi
    rw [Nat.mod_eq_of_lt (List.mem_range.1 hi), Nat.mod_add_mod]
  have e2 : (List.range n).map P = (List.range' 0 n).map (fun i => P (i % n)) := by
    rw [← List.range_eq_range']
    apply List.map_congr_left
    intro i hi
    rw [Nat.mod_eq_of_lt (List.mem_range.1 hi)]
  rw [e1, e2]; exact key

example : area2 [⟨8, 0⟩, ⟨0, 6⟩, ⟨0, 0⟩] = 48 ∧ area2 ((List.range 4).map midPt) = 48 := by decide +kernel
example : (∀ i < 4, midPt i ≠ midPt ((i + 1) % 4)) ∧ exactTest (midPt 1) (midPt ((1 + 1) % 4)) (midPt ((1 + 2) % 4)) = false := by decide +kernel
end Verif.Props
