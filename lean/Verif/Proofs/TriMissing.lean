import Verif.Model.Driver
import Verif.Model.Triangle
import Verif.Spec.Triangle
/- A point that is in no triangle. -/
namespace Verif.Tri
open Verif Verif.Mesh Verif.Internal Verif.Geom Verif.Readout Verif.Driver

theorem none_yet {α : Type} (n p : Nat) : (List.replicate n ([] : List α)).getD p [] = [] := by
  by_cases h : p < n <;> simp [List.getD, h]

theorem addTri_other {l l' : List (List Nat)} {g i p : Nat} (h : addTri l g i = .ok l') (hp : p ≠ g) : l'.getD p [] = l.getD p [] := by
  unfold addTri at h
  obtain ⟨s, _, h⟩ := Res.bind_eq_ok.1 h
  obtain ⟨_, rfl⟩ := wr_eq_ok.1 h
  simp [List.getD, List.getElem?_set_ne (Ne.symm hp)]

theorem triStore_other {dbg : Bool} {i p : Nat} {t : Tri3} {c : P2} {s s' : TriS} (h : triStore dbg i t c s = .ok s') (hp : p ∉ corners t) : s'.gen2tri.getD p [] = s.gen2tri.getD p [] := by
  simp only [corners, List.mem_cons, List.not_mem_nil, or_false, not_or] at hp
  unfold triStore at h
  obtain ⟨_, _, h⟩ := Res.bind_eq_ok.1 h
  obtain ⟨_, _, h⟩ := Res.bind_eq_ok.1 h
  obtain ⟨_, _, h⟩ := Res.bind_eq_ok.1 h
  obtain ⟨g1, e1, h⟩ := Res.bind_eq_ok.1 h
  obtain ⟨g2, e2, h⟩ := Res.bind_eq_ok.1 h
  obtain ⟨g3, e3, h⟩ := Res.bind_eq_ok.1 h
  obtain ⟨_, _, h⟩ := Res.bind_eq_ok.1 h
  obtain ⟨_, _, h⟩ := Res.bind_eq_ok.1 h
  injection h with h; subst h
  exact (addTri_other e3 hp.2.2).trans ((addTri_other e2 hp.2.1).trans (addTri_other e1 hp.1))

theorem triScan_other {dbg : Bool} {centre : Tri3 → Res (Option P2)} {p : Nat} : ∀ (ts : List Tri3) (i : Nat) (s s' : TriS), (∀ t ∈ ts, p ∉ corners t) → triScan dbg centre i ts s = .ok s' →
    s'.gen2tri.getD p [] = s.gen2tri.getD p []
  | [], _, s, s', _, h => by injection h with h; rw [h]
  | t :: ts, i, s, s', hp, h => by
    rw [triScan] at h
    obtain ⟨c, _, h⟩ := Res.bind_eq_ok.1 h
    cases c with
    | none => exact triScan_other ts _ _ _ (fun x hx => hp x (List.mem_cons_of_mem _ hx)) h
    | some c =>
      obtain ⟨s1, e1, h⟩ := Res.bind_eq_ok.1 h
      exact (triScan_other ts _ _ _ (fun x hx => hp x (List.mem_cons_of_mem _ hx)) h).trans (triStore_other e1 (hp t (List.mem_cons_self ..)))

theorem triSide_other {dbg : Bool} {p p' : Nat} {ii jj : Int} {c c' : TriC} (h : triSide dbg p' ii jj c = .ok c') (hp : p ≠ p') : c'.cells.getD p [] = c.cells.getD p [] := by
  unfold triSide at h
  obtain ⟨_, _, h⟩ := Res.bind_eq_ok.1 h
  obtain ⟨_, _, h⟩ := Res.bind_eq_ok.1 h
  obtain ⟨_, _, h⟩ := Res.bind_eq_ok.1 h
  obtain ⟨_, _, h⟩ := Res.bind_eq_ok.1 h
  obtain ⟨_, _, h⟩ := Res.bind_eq_ok.1 h
  obtain ⟨_, e, h⟩ := Res.bind_eq_ok.1 h
  injection h with h; subst h
  obtain ⟨_, rfl⟩ := wr_eq_ok.1 e
  simp [List.getD, List.getElem?_set_ne (Ne.symm hp)]

theorem triSides_other {dbg : Bool} {p p' : Nat} (hp : p ≠ p') : ∀ (xs : List (Int × Int)) (c c' : TriC), triSides dbg p' xs c = .ok c' → c'.cells.getD p [] = c.cells.getD p []
  | [], c, c', h => by injection h with h; rw [h]
  | x :: xs, c, c', h => by
    obtain ⟨c1, e1, h⟩ := Res.bind_eq_ok.1 h
    exact (triSides_other hp xs _ _ h).trans (triSide_other e1 hp)

theorem triCells_other {dbg : Bool} {s : TriS} {p : Nat} (hg : s.gen2tri.getD p [] = []) : ∀ (k p' : Nat) (c c' : TriC), c.cells.getD p [] = [] → triCells dbg s p' k c = .ok c' → c'.cells.getD p [] = []
  | 0, _, c, c', hc, h => by injection h with h; rw [← h]; exact hc
  | k + 1, p', c, c', hc, h => by
    rw [triCells] at h
    obtain ⟨tris, e0, h⟩ := Res.bind_eq_ok.1 h
    obtain ⟨m, e1, h⟩ := Res.bind_eq_ok.1 h
    obtain ⟨nodes, e2, h⟩ := Res.bind_eq_ok.1 h
    obtain ⟨_, _, h⟩ := Res.bind_eq_ok.1 h
    obtain ⟨c1, e3, h⟩ := Res.bind_eq_ok.1 h
    refine triCells_other hg k _ _ _ ?_ h
    by_cases hp : p = p'
    · subst hp
      have : tris = [] := by
        have := rd_eq_ok.1 e0
        simpa [List.getD, this] using hg
      subst this
      injection e1 with e1; subst e1
      injection e2 with e2; subst e2
      injection e3 with e3; subst e3
      exact hc
    · rw [triSides_other hp _ _ _ e3]; exact hc

/-- A generator in no triangle: a debug build does not return, a release build returns an empty cell. -/
theorem missing_core {delaunay : List (V2 ℝ) → List Tri3} {dbg : Bool} {q r : QT} {p : Nat} (hp : p < q.generators.length) (hno : ∀ t ∈ delaunay ((q.generators ++ q.guards).map (dequantize2 q)), p ∉ corners t)
    (h : triangleTess delaunay dbg q = .ok r) : dbg = false ∧ r.cellEdges.getD p [] = [] := by
  unfold triangleTess at h
  dsimp only at h
  split at h
  · exact absurd h (by simp)
  obtain ⟨x, e, h⟩ := Res.bind_eq_ok.1 h
  injection h with h; subst h
  unfold triRead at e
  obtain ⟨s, e1, e⟩ := Res.bind_eq_ok.1 e
  obtain ⟨_, e2, e⟩ := Res.bind_eq_ok.1 e
  obtain ⟨c, e3, e⟩ := Res.bind_eq_ok.1 e
  injection e with e; subst e
  have hg : s.gen2tri.getD p [] = [] := by
    rw [triScan_other _ _ _ _ hno e1]
    exact none_yet _ _
  constructor
  · cases dbg with
    | false => rfl
    | true =>
      exfalso
      by_cases hc : triContract q.generators.length s = true
      · unfold triContract at hc
        rw [Bool.and_eq_true] at hc
        have := List.all_eq_true.1 hc.2 p (List.mem_range.2 hp)
        rw [hg] at this
        simp at this
      · simp [Res.assert, hc] at e2
  · exact triCells_other hg _ _ _ _ (none_yet _ _) e3
end Verif.Tri
