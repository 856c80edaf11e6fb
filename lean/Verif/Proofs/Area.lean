import Verif.Model.Measure
import Verif.Spec.Measure
import Verif.Proofs.Restrict
import Verif.Proofs.CellPLC
import Mathlib.Tactic.Ring
import Mathlib.Tactic.FieldSimp
import Mathlib.Tactic.Linarith
import Mathlib.Tactic.LinearCombination
import Mathlib.Algebra.BigOperators.Group.Finset.Basic
import Mathlib.Algebra.BigOperators.Ring.Finset
/- Proofs about 2D areas and centroids. -/
namespace Verif.Geom
open Verif Verif.Mesh Verif.Editor
section
variable {K : Type} [Field K] [LinearOrder K]

omit [LinearOrder K] in
theorem rdV2_ok {m : Tess K} {n : Nat} (h : n < numNodes 2 m) : rdV2 m.nodes n = .ok (pos2 m n) := by
  have h1 : 2 * n + 1 < m.nodes.length := by simp only [numNodes] at h; omega
  rw [rdV2, rd_getD (by omega) 0, rd_getD h1 0]; rfl

/-- The contribution of a side to twice the area. -/
def dSide (m : Tess K) (s : Int) : K := (pos2 m (tail m s)).x * (pos2 m (head m s)).y - (pos2 m (tail m s)).y * (pos2 m (head m s)).x

omit [LinearOrder K] in
theorem tail_lt {m : Tess K} (hc : Consistent 2 m) (hp : Planar m) {s : Int} (hs : posID s < m.faces.length) : tail m s < numNodes 2 m := by
  have hF := face_mem hs
  obtain ⟨a, b, h2, -⟩ := hp _ hF
  refine hc.faces_lt _ hF _ ?_
  unfold tail
  rw [h2]; split <;> simp

theorem areaLoop_ok {dbg : Bool} {m : Tess K} (hc : Consistent 2 m) (hp : Planar m) : ∀ {C : List Int} {acc : K × V2 K}, (∀ s ∈ C, posID s < m.faces.length) →
    areaLoop dbg m C acc = .ok (acc.1 + (C.map (dSide m)).sum,
      ⟨acc.2.x + (C.map fun s => dSide m s * ((pos2 m (tail m s)).x + (pos2 m (head m s)).x)).sum,
       acc.2.y + (C.map fun s => dSide m s * ((pos2 m (tail m s)).y + (pos2 m (head m s)).y)).sum⟩)
  | [], acc, _ => by simp [areaLoop]
  | s :: C, acc, h => by
    have hs := h s (by simp)
    have hF := face_mem hs
    obtain ⟨a, b, hab, hne⟩ := hp _ hF
    have ht := tail_lt hc hp hs
    have hh := head_lt hc (fun F hF => by obtain ⟨a, b, e, -⟩ := hp F hF; simp [e]) hs
    have e0 : rd (face m (posID s)) (if s < 0 then 1 else 0) = .ok (tail m s) := by
      unfold tail
      by_cases h0 : s < 0
      · rw [if_pos h0, if_neg (by omega), rd_getD (by rw [hab]; simp) 0]
      · rw [if_neg h0, if_pos (by omega), rd_getD (by rw [hab]; simp) 0]
    have e1 : rd (face m (posID s)) (if s < 0 then 0 else 1) = .ok (head m s) := by
      unfold head
      by_cases h0 : s < 0
      · rw [if_pos h0, if_neg (by omega), rd_getD (by rw [hab]; simp) 0]
      · rw [if_neg h0, if_pos (by omega), rd_getD (by rw [hab]; simp) 0]
    have hth : tail m s ≠ head m s := by
      unfold tail head; rw [hab]; split
      · simpa using hne
      · simpa using hne.symm
    rw [areaLoop]
    simp only [Res.bind_eq]
    rw [Res.assert_true dbg (by exact hs), Res.bind_ok, rd_getD hs []]
    change (Res.ok (face m (posID s)) |>.bind _) = _
    rw [Res.bind_ok, Res.assert_true dbg (by rw [hab]; rfl), Res.bind_ok, e0, Res.bind_ok, e1, Res.bind_ok, Res.assert_true dbg (by exact ⟨ht, hh⟩), Res.bind_ok,
      Res.assert_true dbg (by exact hth), Res.bind_ok, rdV2_ok ht, Res.bind_ok, rdV2_ok hh, Res.bind_ok,
      areaLoop_ok hc hp fun t ht => h t (by simp [ht])]
    simp only [List.map_cons, List.sum_cons, dSide]
    congr 1
    ext
    · simp only; ring
    · simp only; ring
    · simp only; ring

/-- Sums of differences around a path telescope. -/
theorem path_sum {V : Type} [AddCommGroup V] {R : Type} {m : Tess R} (φ : Nat → V) : ∀ {C : List Int} {a b : Nat}, Path m a C b →
    (C.map fun s => φ (head m s) - φ (tail m s)).sum = φ b - φ a
  | [], a, b, h => by cases h; simp
  | s :: C, a, b, h => by
    rw [List.map_cons, List.sum_cons, path_sum φ h.2, h.1]; abel

theorem loop_sum {V : Type} [AddCommGroup V] {R : Type} {m : Tess R} (φ : Nat → V) {C : List Int} (h : ClosedLoop m C) :
    (C.map fun s => φ (head m s) - φ (tail m s)).sum = 0 := by
  obtain ⟨a, h⟩ := h
  rw [path_sum φ h, sub_self]

theorem sum_map_add' {α V : Type} [AddCommGroup V] (f g : α → V) (l : List α) : (l.map f).sum + (l.map g).sum = (l.map fun a => f a + g a).sum := by
  induction l with
  | nil => simp
  | cons a l ih => simp only [List.map_cons, List.sum_cons, ← ih]; abel

omit [LinearOrder K] in
theorem fanArea_eq {m : Tess K} {C : List Int} (h : ClosedLoop m C) (o : V2 K) : fanArea2 m o C = (C.map (dSide m)).sum := by
  have := loop_sum (fun n => o.x * (pos2 m n).y - o.y * (pos2 m n).x) h
  rw [← add_zero (fanArea2 m o C), ← this, fanArea2, sum_map_add']
  congr 1
  refine List.map_congr_left fun s _ => ?_
  simp only [area2, dSide]; ring

omit [LinearOrder K] in
theorem fanMomentX_eq {m : Tess K} {C : List Int} (h : ClosedLoop m C) (o : V2 K) :
    fanMomentX m o C = (C.map fun s => dSide m s * ((pos2 m (tail m s)).x + (pos2 m (head m s)).x)).sum := by
  have := loop_sum (fun n => (o.x * (pos2 m n).y - o.y * (pos2 m n).x) * (o.x + (pos2 m n).x)) h
  rw [← add_zero (fanMomentX m o C), ← this, fanMomentX, sum_map_add']
  congr 1
  refine List.map_congr_left fun s _ => ?_
  simp only [area2, dSide]; ring

omit [LinearOrder K] in
theorem fanMomentY_eq {m : Tess K} {C : List Int} (h : ClosedLoop m C) (o : V2 K) :
    fanMomentY m o C = (C.map fun s => dSide m s * ((pos2 m (tail m s)).y + (pos2 m (head m s)).y)).sum := by
  have := loop_sum (fun n => (o.x * (pos2 m n).y - o.y * (pos2 m n).x) * (o.y + (pos2 m n).y)) h
  rw [← add_zero (fanMomentY m o C), ← this, fanMomentY, sum_map_add']
  congr 1
  refine List.map_congr_left fun s _ => ?_
  simp only [area2, dSide]; ring

theorem centroidAndArea_eq {dbg : Bool} {m : Tess K} (hc : Consistent 2 m) (hp : Planar m) {c : Nat} (hlt : c < m.cells.length) (tol : K) :
    centroidAndArea dbg m c tol = (Res.assert dbg (|((cell m c).map (dSide m)).sum| > tol)).bind fun _ =>
      .ok (((cell m c).map (dSide m)).sum / 2,
        ⟨((cell m c).map fun s => dSide m s * ((pos2 m (tail m s)).x + (pos2 m (head m s)).x)).sum / (6 * (((cell m c).map (dSide m)).sum / 2)),
         ((cell m c).map fun s => dSide m s * ((pos2 m (tail m s)).y + (pos2 m (head m s)).y)).sum / (6 * (((cell m c).map (dSide m)).sum / 2))⟩) := by
  have hin : ∀ s ∈ cell m c, posID s < m.faces.length := hc.cells_lt _ (cell_mem hlt)
  rw [centroidAndArea]
  simp only [Res.bind_eq]
  rw [Res.assert_true dbg (by exact hlt), Res.bind_ok, rd_getD hlt []]
  change (Res.ok (cell m c) |>.bind _) = _
  rw [Res.bind_ok, areaLoop_ok hc hp hin, Res.bind_ok]
  simp only [zero_add, V2.zero_x, V2.zero_y]
  rfl

/-! ### Double counting -/

/-- The sum over the sides of a cell of a quantity that changes sign with the direction of the face. -/
theorem sum_signed {V : Type} [Ring V] (x : Nat → V) (n : Nat) : ∀ (C : List Int), (∀ s ∈ C, posID s < n) →
    (C.map fun s => if 0 ≤ s then x (posID s) else - x (posID s)).sum = ∑ f ∈ Finset.range n, ((C.count (f : Int) : V) - (C.count (flip f) : V)) * x f
  | [], _ => by simp
  | s :: C, h => by
    have ih := sum_signed x n C fun t ht => h t (by simp [ht])
    have hs := h s (by simp)
    rw [List.map_cons, List.sum_cons, ih]
    have key : ∀ f ∈ Finset.range n, (((s :: C).count (f : Int) : V) - ((s :: C).count (flip f) : V)) * x f =
        (if f = posID s then (if 0 ≤ s then x f else - x f) else 0) + ((C.count (f : Int) : V) - (C.count (flip f) : V)) * x f := by
      intro f _
      rw [List.count_cons, List.count_cons]
      by_cases hf : f = posID s
      · subst hf
        by_cases h0 : 0 ≤ s
        · have e1 : s = (posID s : Int) := by unfold posID flip; split <;> omega
          have e2 : s ≠ flip (posID s : Nat) := by unfold posID flip; split <;> omega
          rw [if_pos rfl, if_pos h0, if_pos (by simpa using e1), if_neg (by simpa using e2)]
          push_cast; noncomm_ring
        · have e1 : s ≠ (posID s : Int) := by unfold posID flip; split <;> omega
          have e2 : s = flip (posID s : Nat) := by unfold posID flip; split <;> omega
          rw [if_pos rfl, if_neg h0, if_neg (by simpa using e1), if_pos (by simpa using e2)]
          push_cast; noncomm_ring
      · have e1 : s ≠ (f : Int) := by rintro rfl; apply hf; unfold posID flip; split <;> omega
        have e2 : s ≠ flip f := by rintro rfl; apply hf; unfold posID flip; split <;> omega
        rw [if_neg hf, if_neg (by simpa using e1), if_neg (by simpa using e2)]
        push_cast; noncomm_ring
    rw [Finset.sum_congr rfl key, Finset.sum_add_distrib, Finset.sum_ite_eq' (Finset.range n) (posID s) (fun f => if 0 ≤ s then x f else - x f),
      if_pos (Finset.mem_range.2 hs)]

/-- Counting with signs: the same sum with the quantity equal to one for every face. -/
theorem count_signed {V : Type} [Ring V] (n : Nat) (C : List Int) (h : ∀ s ∈ C, posID s < n) :
    ∑ f ∈ Finset.range n, ((C.count (f : Int) : V) - (C.count (flip f) : V)) = (C.map fun s => if 0 ≤ s then (1 : V) else - 1).sum := by
  rw [sum_signed (fun _ => (1 : V)) n C h]
  exact Finset.sum_congr rfl fun f _ => (mul_one _).symm

theorem list_sum_eq_range {V : Type} [AddCommMonoid V] (g : Nat → V) (n : Nat) : ((List.range n).map g).sum = ∑ i ∈ Finset.range n, g i := by
  induction n with
  | zero => simp
  | succ n ih => rw [List.range_succ, List.map_append, List.sum_append, ih, Finset.sum_range_succ]; simp

/-- In a consistent mesh whose interior faces are used in opposite directions, a quantity that changes sign with the direction of a face sums over all the sides of all
the cells to its sum over the boundary sides. -/
theorem interior_cancels {V R : Type} [Ring V] {D : Nat} {m : Tess R} (hc : Consistent D m) (ho : Opposed m) (x : Nat → V) :
    ((List.range m.cells.length).map fun c => ((cell m c).map fun s => if 0 ≤ s then x (posID s) else - x (posID s)).sum).sum
      = ((boundarySides m).map fun s => if 0 ≤ s then x (posID s) else - x (posID s)).sum := by
  rw [list_sum_eq_range]
  have h1 : ∀ c ∈ Finset.range m.cells.length, ((cell m c).map fun s => if 0 ≤ s then x (posID s) else - x (posID s)).sum =
      ∑ f ∈ Finset.range m.faces.length, (((cellsOf m f).count (c : Int) : V) - ((cellsOf m f).count (flip c) : V)) * x f := by
    intro c hcm
    have hlt := Finset.mem_range.1 hcm
    rw [sum_signed x m.faces.length _ (hc.cells_lt _ (cell_mem hlt))]
    refine Finset.sum_congr rfl fun f hf => ?_
    obtain ⟨e1, e2⟩ := hc.inverse f (Finset.mem_range.1 hf) c hlt
    rw [e1, e2]
  rw [Finset.sum_congr rfl h1, Finset.sum_comm]
  have h2 : ∀ f ∈ Finset.range m.faces.length, ∑ c ∈ Finset.range m.cells.length, (((cellsOf m f).count (c : Int) : V) - ((cellsOf m f).count (flip c) : V)) * x f
      = ((cellsOf m f).map fun s => if 0 ≤ s then (1 : V) else - 1).sum * x f := by
    intro f hf
    have hlt := Finset.mem_range.1 hf
    rw [← Finset.sum_mul, count_signed m.cells.length _ (hc.faceCells_lt _ (cellsOf_mem (by rw [hc.faceCells_len]; exact hlt)))]
  rw [Finset.sum_congr rfl h2, ← list_sum_eq_range, boundarySides, List.map_flatMap]
  have h3 : ∀ (L : List Nat), (∀ f ∈ L, f < m.faces.length) →
      (L.map fun f => ((cellsOf m f).map fun s => if 0 ≤ s then (1 : V) else - 1).sum * x f).sum =
      (L.flatMap fun f => ((match cellsOf m f with | [s] => [if 0 ≤ s then (f : Int) else flip f] | _ => []) : List Int).map
        fun s => if 0 ≤ s then x (posID s) else - x (posID s)).sum := by
    intro L
    induction L with
    | nil => simp
    | cons f L ih =>
      intro hL
      rw [List.map_cons, List.sum_cons, List.flatMap_cons, List.sum_append, ih fun g hg => hL g (by simp [hg])]
      congr 1
      have hf := hL f (by simp)
      have hm := cellsOf_mem (m := m) (f := f) (by rw [hc.faceCells_len]; exact hf)
      rcases hc.faceCells_size _ hm with h | h
      · match he : cellsOf m f, h with
        | [s], _ =>
          have p1 : posID (f : Int) = f := by unfold posID flip; split <;> omega
          have p2 : posID (flip f) = f := by unfold posID flip; split <;> omega
          have p3 : ¬ (0 ≤ flip (f : Int)) := by unfold flip; omega
          by_cases h0 : 0 ≤ s
          · simp [h0, p1]
          · simp [h0, p2, p3]
      · obtain ⟨s, t, hst, hs, ht⟩ := ho _ hm h
        rcases hst with e | e <;> rw [e] <;> simp [hs, not_le.2 ht]
  exact h3 _ fun f hf => List.mem_range.1 hf

omit [LinearOrder K] in
theorem area_signed (m : Tess K) (hp : Planar m) (o : V2 K) {s : Int} (hs : posID s < m.faces.length) :
    area2 o (pos2 m (tail m s)) (pos2 m (head m s)) = if 0 ≤ s then area2 o (pos2 m (tail m (posID s : Int))) (pos2 m (head m (posID s : Int)))
      else - area2 o (pos2 m (tail m (posID s : Int))) (pos2 m (head m (posID s : Int))) := by
  obtain ⟨a, b, hab, -⟩ := hp _ (face_mem hs)
  have p1 : posID (posID s : Int) = posID s := by generalize posID s = k; unfold posID flip; split <;> omega
  have p0 : (0 : Int) ≤ (posID s : Int) := by omega
  by_cases h0 : 0 ≤ s
  · rw [if_pos h0]
    unfold tail head; rw [p1, if_pos h0, if_pos p0, if_pos h0, if_pos p0]
  · rw [if_neg h0]
    unfold tail head; rw [p1, hab, if_neg h0, if_pos p0, if_neg h0, if_pos p0]
    simp [area2]; ring

theorem boundarySides_lt {R : Type} {m : Tess R} {s : Int} (h : s ∈ boundarySides m) : posID s < m.faces.length := by
  obtain ⟨f, hf, h⟩ := List.mem_flatMap.1 h
  have hf := List.mem_range.1 hf
  split at h
  · rw [List.mem_singleton] at h
    subst h
    split
    · rw [posID_natCast]; exact hf
    · rw [posID_flip]; exact hf
  · simp at h

end
end Verif.Geom
