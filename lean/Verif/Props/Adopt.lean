import Verif.Model.Adopt
import Verif.Spec.Adopt
import Verif.Props.Orphanage
/-
C110: the adoption of orphans.
-/
namespace Verif.Props
open Verif Verif.Adopt Verif.Orphanage Verif.Geom

theorem mem_nodesOf : ∀ {points : List Int} {p : V2 Int}, p ∈ nodesOf points ↔ HasPoint points p
  | [], p => by simp [nodesOf, HasPoint]
  | [x], p => by
    simp only [nodesOf, List.not_mem_nil, HasPoint, false_iff, not_exists, not_and]
    intro k _
    simp
  | x :: y :: r, p => by
    rw [nodesOf, List.mem_cons, mem_nodesOf]
    constructor
    · rintro (rfl | ⟨k, h1, h2⟩)
      · exact ⟨0, by simp, by simp⟩
      · exact ⟨k + 1, by simpa [Nat.mul_add] using h1, by simpa [Nat.mul_add] using h2⟩
    · rintro ⟨k, h1, h2⟩
      cases k with
      | zero =>
        left
        simp only [Nat.mul_zero, List.getElem?_cons_zero, Option.some.injEq, Nat.zero_add, List.getElem?_cons_succ] at h1 h2
        cases p; simp_all
      | succ k => exact .inr ⟨k, by simpa [Nat.mul_add] using h1, by simpa [Nat.mul_add] using h2⟩

theorem mem_neighbors {cells : List IPlc} {orphan : IPlc} {j : Nat} : j ∈ neighbors cells orphan ↔ ∃ c, cells[j]? = some c ∧ Touch orphan.points c.points := by
  unfold neighbors Touch
  rw [List.mem_filter, List.mem_range]
  constructor
  · rintro ⟨hj, h⟩
    rw [List.getElem?_eq_getElem hj] at h
    simp only [Option.any_some, List.any_eq_true, decide_eq_true_eq] at h
    obtain ⟨p, h1, h2⟩ := h
    exact ⟨_, List.getElem?_eq_getElem hj, p, mem_nodesOf.1 h1, mem_nodesOf.1 h2⟩
  · rintro ⟨c, hc, p, h1, h2⟩
    refine ⟨(List.getElem?_eq_some_iff.1 hc).1, ?_⟩
    rw [hc]
    simp only [Option.any_some, List.any_eq_true, decide_eq_true_eq]
    exact ⟨p, mem_nodesOf.2 h1, mem_nodesOf.2 h2⟩

variable {R K : Type} [LinearOrder K]

theorem adoptOne_frame {e : Ext R K} {dbg many : Bool} {orphan : IPlc} {nbh cells cells' : List IPlc} {k index : Nat}
    (h : adoptOne e dbg many orphan nbh k index cells = .ok cells') : ∃ c, cells' = cells.set index c := by
  unfold adoptOne at h
  obtain ⟨old, _, h⟩ := Res.bind_eq_ok.mp h
  obtain ⟨c1, _, h⟩ := Res.bind_eq_ok.mp h
  obtain ⟨_, _, h⟩ := Res.bind_eq_ok.mp h
  obtain ⟨c2, _, h⟩ := Res.bind_eq_ok.mp h
  obtain ⟨_, _, h⟩ := Res.bind_eq_ok.mp h
  obtain ⟨_, _, h⟩ := Res.bind_eq_ok.mp h
  exact ⟨c2, (wr_eq_ok.1 h).2.symm⟩

theorem adoptLoop_frame {e : Ext R K} {dbg many : Bool} {orphan : IPlc} {nbh : List IPlc} : ∀ {is : List Nat} {k : Nat} {cells cells' : List IPlc},
    adoptLoop e dbg many orphan nbh is k cells = .ok cells' → cells'.length = cells.length ∧ ∀ j, j ∉ is → cells'[j]? = cells[j]?
  | [], _, _, _, h => by cases h; exact ⟨rfl, fun _ _ => rfl⟩
  | i :: is, k, cells, cells', h => by
    obtain ⟨c1, h1, h⟩ := Res.bind_eq_ok.mp h
    obtain ⟨c, rfl⟩ := adoptOne_frame h1
    obtain ⟨hl, hj⟩ := adoptLoop_frame h
    refine ⟨by simpa using hl, fun j hn => ?_⟩
    simp only [List.mem_cons, not_or] at hn
    rw [hj j hn.2, List.getElem?_set_ne (Ne.symm hn.1)]

theorem orphanLoop_frame {e : Ext R K} {dbg : Bool} {points : List R} {cells0 : List IPlc} : ∀ {os cells cells' : List IPlc},
    orphanLoop e dbg points cells0 os cells = .ok cells' →
      cells'.length = cells.length ∧ ∀ j, (∀ o ∈ os, j ∉ neighbors cells0 o) → cells'[j]? = cells[j]?
  | [], _, _, h => by cases h; exact ⟨rfl, fun _ _ => rfl⟩
  | o :: os, cells, cells', h => by
    obtain ⟨_, _, h⟩ := Res.bind_eq_ok.mp h
    obtain ⟨_, _, h⟩ := Res.bind_eq_ok.mp h
    obtain ⟨_, _, h⟩ := Res.bind_eq_ok.mp h
    obtain ⟨nbh, _, h⟩ := Res.bind_eq_ok.mp h
    obtain ⟨c1, h1, h⟩ := Res.bind_eq_ok.mp h
    obtain ⟨hl1, hj1⟩ := adoptLoop_frame h1
    obtain ⟨hl, hj⟩ := orphanLoop_frame h
    refine ⟨hl.trans hl1, fun j hn => ?_⟩
    rw [hj j fun o' ho' => hn o' (by simp [ho']), hj1 j (hn o (by simp))]

/-- However the polygons are united and the neighborhood tessellated: there are as many cells after the adoption as before, and a cell that
had no point in common with an orphan is as before. -/
theorem C110_others {e : Ext R K} {dbg : Bool} {points : List R} {cells orphans cells' : List IPlc}
    (h : adoptOrphans e dbg points cells orphans = .ok cells') : cells'.length = cells.length ∧
      ∀ (j : Nat) (c : IPlc), cells[j]? = some c → (∀ o ∈ e.unionReduce orphans, ¬ Touch o.points c.points) → cells'[j]? = some c := by
  unfold adoptOrphans at h
  obtain ⟨_, _, h⟩ := Res.bind_eq_ok.mp h
  obtain ⟨_, _, h⟩ := Res.bind_eq_ok.mp h
  obtain ⟨_, _, h⟩ := Res.bind_eq_ok.mp h
  obtain ⟨_, _, h⟩ := Res.bind_eq_ok.mp h
  obtain ⟨_, _, h⟩ := Res.bind_eq_ok.mp h
  obtain ⟨hl, hj⟩ := orphanLoop_frame h
  refine ⟨hl, fun j c hc hn => ?_⟩
  rw [hj j, hc]
  intro o ho hm
  obtain ⟨c', hc', ht⟩ := mem_neighbors.1 hm
  rw [hc] at hc'
  cases hc'
  exact hn o ho ht

theorem neighbors_single {cells : List IPlc} {orphan : IPlc} {j : Nat} {c : IPlc} (hc : cells[j]? = some c) (ht : Touch orphan.points c.points)
    (ho : ∀ k c', cells[k]? = some c' → Touch orphan.points c'.points → k = j) : neighbors cells orphan = [j] := by
  have hmem : ∀ k, k ∈ neighbors cells orphan ↔ k = j := fun k => by
    rw [mem_neighbors]
    exact ⟨fun ⟨c', h1, h2⟩ => ho k c' h1 h2, fun h => h ▸ ⟨c, hc, ht⟩⟩
  have hnd : (neighbors cells orphan).Nodup := List.nodup_range.filter _
  generalize neighbors cells orphan = l at hmem hnd
  match l with
  | [] => exact absurd ((hmem j).2 rfl) (by simp)
  | [a] => rw [(hmem a).1 (by simp)]
  | a :: b :: r =>
    have ha := (hmem a).1 (by simp)
    have hb := (hmem b).1 (by simp)
    simp [ha, hb] at hnd

/-- Two cells, `[0, 4] × [0, 4]` and `[20, 24] × [0, 4]`, and the orphan `[4, 8] × [0, 4]`. -/
def boxPlc (x y w h : Int) : IPlc := ⟨[x, y, x + w, y, x + w, y + h, x, y + h], [[0, 1], [1, 2], [2, 3], [3, 0]], []⟩
def demoExt (t : V2 Int → V2 Int → V2 Int → Bool) : Ext Unit Int where
  unionReduce l := l
  union _ _ := [boxPlc 0 0 8 4]
  intersects _ := false
  tess _ _ := .ok []
  flat := t
  long _ _ := true
  dist p q := |p.x - q.x| + |p.y - q.y|
  tol := 2

example : adoptOrphans (demoExt exactTest) true [(), ()] [boxPlc 0 0 4 4, boxPlc 20 0 4 4] [boxPlc 4 0 4 4] =
    .ok [⟨[8, 0, 8, 4, 0, 4, 0, 0], [[0, 1], [1, 2], [2, 3], [3, 0]], []⟩, boxPlc 20 0 4 4] := by decide +kernel

theorem demo_touch : Touch (boxPlc 4 0 4 4).points (boxPlc 0 0 4 4).points := ⟨⟨4, 0⟩, ⟨0, rfl, rfl⟩, ⟨1, rfl, rfl⟩⟩
theorem demo_only : ∀ (k : Nat) (c' : IPlc), [boxPlc 0 0 4 4, boxPlc 20 0 4 4][k]? = some c' → Touch (boxPlc 4 0 4 4).points c'.points → k = 0 := by
  intro k c' hk ht
  have h : k ∈ neighbors [boxPlc 0 0 4 4, boxPlc 20 0 4 4] (boxPlc 4 0 4 4) := mem_neighbors.2 ⟨c', hk, ht⟩
  have e : neighbors [boxPlc 0 0 4 4, boxPlc 20 0 4 4] (boxPlc 4 0 4 4) = [0] := by decide +kernel
  rw [e] at h
  simpa using h
theorem demo_loop : Loop (boxPlc 0 0 8 4).points (boxPlc 0 0 8 4).facets 4 (fun i => i) (rectPt 0 0 8 4) := by unfold Loop; decide +kernel

theorem adopt_single {e : Ext R K} {points : List R} {cells orphans : List IPlc} {orphan c u r : IPlc} {j : Nat} (hr : e.unionReduce orphans = [orphan])
    (hc : cells[j]? = some c) (ht : Touch orphan.points c.points) (ho : ∀ k c', cells[k]? = some c' → Touch orphan.points c'.points → k = j)
    (hu : e.union orphan c = [u]) (hrem : removeCollinearWith e.flat false u = .ok r) : adoptOrphans e false points cells orphans = .ok (cells.set j r) := by
  have hj := (List.getElem?_eq_some_iff.1 hc).1
  have h1 : adoptOne e false false orphan [] 0 j cells = .ok (cells.set j r) := by
    simp only [adoptOne, rd_eq_ok.2 hc, Res.bind_eq, Res.bind_ok, cellOfOne, hu, Res.assert_release, Bool.false_eq_true, if_false, Res.pure_eq]
    rw [show rd [u] 0 = .ok u from rfl, Res.bind_ok, Res.bind_ok, hrem, Res.bind_ok, wr_lt hj]
  simp [adoptOrphans, hr, orphanLoop, neighbors_single hc ht ho, adoptLoop, h1, Res.bind_eq]

/-- An orphan that shares points with one cell only is united with it, and the corners of the union at which the three-point test says no are the
new cell; no other cell changes. -/
theorem C110_single_partial {e : Ext R K} {points : List R} {cells orphans : List IPlc} {orphan c u : IPlc} {j n : Nat} {id : Nat → Nat} {P : Nat → V2 Int}
    (hr : e.unionReduce orphans = [orphan]) (hc : cells[j]? = some c) (ht : Touch orphan.points c.points)
    (ho : ∀ k c', cells[k]? = some c' → Touch orphan.points c'.points → k = j) (hu : e.union orphan c = [u]) (hl : Loop u.points u.facets n id P) :
    ∃ kept : List (V2 Int),
      kept = ((List.range n).filter fun i => !e.flat (P i) (P ((i + 1) % n)) (P (((i + 1) % n + 1) % n))).map (fun i => P ((i + 1) % n)) ∧
      adoptOrphans e false points cells orphans =
        .ok (cells.set j ⟨flat kept, (List.range kept.length).map fun i => [Int.ofNat i, Int.ofNat ((i + 1) % kept.length)], []⟩) := by
  obtain ⟨kept, hk, hrem⟩ := C108_corners_partial e.flat hl
  refine ⟨kept, hk, ?_⟩
  exact adopt_single hr hc ht ho hu hrem

theorem orphanLoop_split {e : Ext R K} {dbg : Bool} {points : List R} {cells0 b : List IPlc} : ∀ {a cells cells' : List IPlc},
    orphanLoop e dbg points cells0 (a ++ b) cells = .ok cells' → ∃ c1, orphanLoop e dbg points cells0 a cells = .ok c1 ∧ orphanLoop e dbg points cells0 b c1 = .ok cells'
  | [], cells, _, h => ⟨cells, rfl, h⟩
  | o :: a, cells, cells', h => by
    obtain ⟨u1, h1, h⟩ := Res.bind_eq_ok.mp h
    obtain ⟨u2, h2, h⟩ := Res.bind_eq_ok.mp h
    obtain ⟨u3, h3, h⟩ := Res.bind_eq_ok.mp h
    obtain ⟨nbh, h4, h⟩ := Res.bind_eq_ok.mp h
    obtain ⟨c1, h5, h⟩ := Res.bind_eq_ok.mp h
    obtain ⟨c2, h6, h⟩ := orphanLoop_split h
    refine ⟨c2, ?_, h⟩
    rw [orphanLoop]
    exact Res.bind_eq_ok.mpr ⟨u1, h1, Res.bind_eq_ok.mpr ⟨u2, h2, Res.bind_eq_ok.mpr ⟨u3, h3, Res.bind_eq_ok.mpr ⟨nbh, h4, Res.bind_eq_ok.mpr ⟨c1, h5, h6⟩⟩⟩⟩⟩

theorem adoptOrphans_loop {e : Ext R K} {dbg : Bool} {points : List R} {cells orphans cells' : List IPlc}
    (h : adoptOrphans e dbg points cells orphans = .ok cells') : orphanLoop e dbg points cells (e.unionReduce orphans) cells = .ok cells' := by
  unfold adoptOrphans at h
  obtain ⟨_, _, h⟩ := Res.bind_eq_ok.mp h
  obtain ⟨_, _, h⟩ := Res.bind_eq_ok.mp h
  obtain ⟨_, _, h⟩ := Res.bind_eq_ok.mp h
  obtain ⟨_, _, h⟩ := Res.bind_eq_ok.mp h
  obtain ⟨_, _, h⟩ := Res.bind_eq_ok.mp h
  exact h

theorem adoptLoop_spec {e : Ext R K} {dbg many : Bool} {orphan : IPlc} {nbh : List IPlc} : ∀ {is : List Nat} {k : Nat} {cells cells' : List IPlc},
    adoptLoop e dbg many orphan nbh is k cells = .ok cells' → is.Nodup → ∀ (m j : Nat), is[m]? = some j → ∃ old cell r : IPlc, cells[j]? = some old ∧
      (if many then cellOfMany e dbg nbh (k + m) old else cellOfOne e dbg orphan old) = .ok cell ∧ removeCollinearWith e.flat dbg cell = .ok r ∧ cells'[j]? = some r
  | [], _, _, _, _, _, m, j, hm => by simp at hm
  | i :: is, k, cells, cells', h, hn, m, j, hm => by
    obtain ⟨c1, h1, h⟩ := Res.bind_eq_ok.mp h
    rw [List.nodup_cons] at hn
    cases m with
    | zero =>
      simp only [List.getElem?_cons_zero, Option.some.injEq] at hm
      subst hm
      unfold adoptOne at h1
      obtain ⟨old, g1, h1⟩ := Res.bind_eq_ok.mp h1
      obtain ⟨cell, g2, h1⟩ := Res.bind_eq_ok.mp h1
      obtain ⟨_, _, h1⟩ := Res.bind_eq_ok.mp h1
      obtain ⟨r, g3, h1⟩ := Res.bind_eq_ok.mp h1
      obtain ⟨_, _, h1⟩ := Res.bind_eq_ok.mp h1
      obtain ⟨_, _, h1⟩ := Res.bind_eq_ok.mp h1
      obtain ⟨hi, rfl⟩ := wr_eq_ok.1 h1
      refine ⟨old, cell, r, rd_eq_ok.1 g1, g2, g3, ?_⟩
      rw [(adoptLoop_frame h).2 i hn.1, List.getElem?_set_self hi]
    | succ m =>
      simp only [List.getElem?_cons_succ] at hm
      obtain ⟨old, cell, r, g1, g2, g3, g4⟩ := adoptLoop_spec h hn.2 m j hm
      obtain ⟨c, rfl⟩ := adoptOne_frame h1
      have hij : i ≠ j := fun he => hn.1 (he ▸ List.mem_of_getElem? hm)
      rw [List.getElem?_set_ne hij] at g1
      exact ⟨old, cell, r, g1, by rw [← g2, Nat.add_right_comm, Nat.add_assoc], g3, g4⟩

theorem neighbors_nodup (cells : List IPlc) (o : IPlc) : (neighbors cells o).Nodup := List.nodup_range.filter _

/-- Of any number of orphans: one that shares points with a single cell, which shares none with another orphan, becomes part of that cell, whatever
happens to the others and to their neighbors. -/
theorem C110_each_partial {e : Ext R K} {dbg : Bool} {points : List R} {cells orphans cells' pre post : List IPlc} {orphan c u : IPlc} {j : Nat}
    (h : adoptOrphans e dbg points cells orphans = .ok cells') (hr : e.unionReduce orphans = pre ++ orphan :: post) (hc : cells[j]? = some c)
    (ht : Touch orphan.points c.points) (ho : ∀ k c', cells[k]? = some c' → Touch orphan.points c'.points → k = j)
    (hothers : ∀ o ∈ pre ++ post, ¬ Touch o.points c.points) (hu : e.union orphan c = [u]) :
    ∃ r, removeCollinearWith e.flat dbg u = .ok r ∧ cells'[j]? = some r := by
  have hno : ∀ o ∈ pre ++ post, j ∉ neighbors cells o := by
    intro o hm hj
    obtain ⟨c', hc', ht'⟩ := mem_neighbors.1 hj
    rw [hc] at hc'; cases hc'
    exact hothers o hm ht'
  have h := adoptOrphans_loop h
  rw [hr] at h
  obtain ⟨c1, h1, h⟩ := orphanLoop_split h
  have e1 : c1[j]? = some c := by rw [(orphanLoop_frame h1).2 j fun o hm => hno o (by simp [hm]), hc]
  obtain ⟨_, _, h⟩ := Res.bind_eq_ok.mp h
  obtain ⟨_, _, h⟩ := Res.bind_eq_ok.mp h
  obtain ⟨_, _, h⟩ := Res.bind_eq_ok.mp h
  obtain ⟨nbh, _, h⟩ := Res.bind_eq_ok.mp h
  obtain ⟨c2, h2, h⟩ := Res.bind_eq_ok.mp h
  have e2 := (orphanLoop_frame h).2 j fun o hm => hno o (by simp [hm])
  rw [neighbors_single hc ht ho] at h2
  obtain ⟨old, cell, r, g1, g2, g3, g4⟩ := adoptLoop_spec h2 (by simp) 0 j rfl
  rw [e1] at g1; cases g1
  simp only [List.length_cons, List.length_nil, Nat.zero_add, gt_iff_lt, Nat.lt_irrefl, decide_false, Bool.false_eq_true, if_false] at g2
  unfold cellOfOne at g2
  obtain ⟨_, _, g2⟩ := Res.bind_eq_ok.mp g2
  obtain ⟨u', g5, g2⟩ := Res.bind_eq_ok.mp g2
  obtain ⟨_, _, g2⟩ := Res.bind_eq_ok.mp g2
  rw [hu] at g5
  cases g5; cases g2
  exact ⟨r, g3, by rw [e2, g4]⟩

/-- Two orphans beside one cell each. -/
def demoExt2 : Ext Unit Int := { demoExt exactTest with union := fun a _ => if a = boxPlc 4 0 4 4 then [boxPlc 0 0 8 4] else [boxPlc 20 0 8 4] }
example : adoptOrphans demoExt2 true [(), (), ()] [boxPlc 0 0 4 4, boxPlc 20 0 4 4, boxPlc 40 0 1 1] [boxPlc 4 0 4 4, boxPlc 24 0 4 4] =
    .ok [⟨[8, 0, 8, 4, 0, 4, 0, 0], [[0, 1], [1, 2], [2, 3], [3, 0]], []⟩, ⟨[28, 0, 28, 4, 20, 4, 20, 0], [[0, 1], [1, 2], [2, 3], [3, 0]], []⟩, boxPlc 40 0 1 1] := by
  decide +kernel

open Classical in
/-- The three-point test of the library at the tolerance 1 that the adoption passes. -/
noncomputable def libraryFlat (a b c : V2 Int) : Bool := decide (collinear2 (toReal a) (toReal b) (toReal c) ((1 : Int) : ℝ))

/-- With the library's test: when the union has no acute angle, as that of two rectangles with a common side, the cell that adopts the orphan is
left without any points, so that the area of both is lost. -/
theorem C110_lost_fails {e : Ext R K} {points : List R} {cells orphans : List IPlc} {orphan c u : IPlc} {j n : Nat} {id : Nat → Nat} {P : Nat → V2 Int}
    (he : e.flat = libraryFlat) (hr : e.unionReduce orphans = [orphan]) (hc : cells[j]? = some c) (ht : Touch orphan.points c.points)
    (ho : ∀ k c', cells[k]? = some c' → Touch orphan.points c'.points → k = j) (hu : e.union orphan c = [u]) (hl : Loop u.points u.facets n id P)
    (ha : NoAcute n P) : adoptOrphans e false points cells orphans = .ok (cells.set j ⟨[], [], []⟩) := by
  have hrem : removeCollinearWith e.flat false u = .ok ⟨[], [], []⟩ := by
    rw [he]; exact (C108_erased_fails hl ha).1
  exact adopt_single hr hc ht ho hu hrem

/-- Both cells and the orphan above meet the hypotheses: the cell of 16 and the orphan of 16 units of area are gone. -/
example : adoptOrphans (demoExt libraryFlat) false [(), ()] [boxPlc 0 0 4 4, boxPlc 20 0 4 4] [boxPlc 4 0 4 4] = .ok [⟨[], [], []⟩, boxPlc 20 0 4 4] :=
  C110_lost_fails rfl rfl rfl demo_touch demo_only rfl demo_loop (by unfold NoAcute; decide +kernel)

/-- The same among any number of orphans: the cell is left without any points; and a checked build never gets past this. -/
theorem C110_each_lost_fails {e : Ext R K} {dbg : Bool} {points : List R} {cells orphans cells' pre post : List IPlc} {orphan c u : IPlc} {j n : Nat} {id : Nat → Nat}
    {P : Nat → V2 Int} (he : e.flat = libraryFlat) (h : adoptOrphans e dbg points cells orphans = .ok cells') (hr : e.unionReduce orphans = pre ++ orphan :: post)
    (hc : cells[j]? = some c) (ht : Touch orphan.points c.points) (ho : ∀ k c', cells[k]? = some c' → Touch orphan.points c'.points → k = j)
    (hothers : ∀ o ∈ pre ++ post, ¬ Touch o.points c.points) (hu : e.union orphan c = [u]) (hl : Loop u.points u.facets n id P) (ha : NoAcute n P)
    (hid : ∀ i < n, id i ≠ id ((i + 1) % n) ∧ id i ≠ id (((i + 1) % n + 1) % n)) : dbg = false ∧ cells'[j]? = some ⟨[], [], []⟩ := by
  obtain ⟨r, h1, h2⟩ := C110_each_partial h hr hc ht ho hothers hu
  obtain ⟨e1, e2⟩ := C108_erased_fails hl ha
  rw [he] at h1
  cases dbg with
  | false =>
    have e1 : removeCollinearWith libraryFlat false u = .ok ⟨[], [], []⟩ := e1
    rw [e1] at h1; cases h1
    exact ⟨rfl, h2⟩
  | true =>
    have e2 : removeCollinearWith libraryFlat true u = .abort := e2 hid
    rw [e2] at h1; cases h1

example (cells' : List IPlc) : adoptOrphans (demoExt libraryFlat) true [(), ()] [boxPlc 0 0 4 4, boxPlc 20 0 4 4] [boxPlc 4 0 4 4] ≠ .ok cells' := fun h => by
  have := (C110_each_lost_fails (pre := []) (post := []) (j := 0) (u := boxPlc 0 0 8 4) rfl h rfl rfl demo_touch demo_only (by simp) rfl demo_loop (by unfold NoAcute; decide +kernel) (by decide +kernel)).1
  cases this

/-- With several neighbors: when the neighborhood has no acute angle its tessellation is asked for within a boundary without any points. -/
theorem C110_neighborhood_fails {e : Ext R K} {points : List R} {cells around nb : List IPlc} {pts : List R} {orphan u : IPlc} {nbs : List Nat} {n : Nat} {id : Nat → Nat}
    {P : Nat → V2 Int} (he : e.flat = libraryFlat) (hp : nbs.mapM (rd points) = .ok pts) (hcs : nbs.mapM (rd cells) = .ok around)
    (hu : e.unionReduce (e.unionReduce (orphan :: around) ++ [orphan]) = u :: nb) (hl : Loop u.points u.facets n id P) (ha : NoAcute n P) :
    neighborhood e false points orphan nbs cells = e.tess pts ⟨[], [], []⟩ := by
  have hrem : removeCollinearWith e.flat false u = .ok ⟨[], [], []⟩ := by
    rw [he]; exact (C108_erased_fails hl ha).1
  simp [neighborhood, hp, hcs, hu, rd, hrem, Res.bind_eq]

example : neighborhood { demoExt libraryFlat with unionReduce := fun _ => [boxPlc 0 0 12 4] } false [(), ()] (boxPlc 4 0 4 4) [0, 1] [boxPlc 0 0 4 4, boxPlc 8 0 4 4] = .ok [] :=
  C110_neighborhood_fails (around := [boxPlc 0 0 4 4, boxPlc 8 0 4 4]) (pts := [(), ()]) (P := rectPt 0 0 12 4) (id := fun i => i) (n := 4) rfl rfl rfl rfl
    (by unfold Loop; decide +kernel) (by unfold NoAcute; decide +kernel)

/-- An orphan without a point in common with any cell, as one that lies along the inner part of a side, is dropped: no cell changes. A checked
build ends here. -/
theorem C110_no_neighbor_fails {e : Ext R K} {points : List R} {cells orphans : List IPlc} {orphan : IPlc} (hr : e.unionReduce orphans = [orphan])
    (hn : ∀ c ∈ cells, ¬ Touch orphan.points c.points) : adoptOrphans e false points cells orphans = .ok cells ∧
      ∀ cells', adoptOrphans e true points cells orphans ≠ .ok cells' := by
  have hnb : neighbors cells orphan = [] := by
    rw [List.eq_nil_iff_forall_not_mem]
    intro k hk
    obtain ⟨c, hc, ht⟩ := mem_neighbors.1 hk
    exact hn c (List.mem_of_getElem? hc) ht
  constructor
  · simp [adoptOrphans, hr, orphanLoop, hnb, adoptLoop, Res.bind_eq]
  · intro cells' h
    unfold adoptOrphans at h
    obtain ⟨_, _, h⟩ := Res.bind_eq_ok.mp h
    obtain ⟨_, _, h⟩ := Res.bind_eq_ok.mp h
    obtain ⟨_, _, h⟩ := Res.bind_eq_ok.mp h
    obtain ⟨_, _, h⟩ := Res.bind_eq_ok.mp h
    obtain ⟨_, _, h⟩ := Res.bind_eq_ok.mp h
    rw [hr, orphanLoop] at h
    obtain ⟨_, _, h⟩ := Res.bind_eq_ok.mp h
    obtain ⟨_, _, h⟩ := Res.bind_eq_ok.mp h
    obtain ⟨_, h', h⟩ := Res.bind_eq_ok.mp h
    exact Res.assert_eq_ok.1 h' rfl hnb

/-- An orphan along the inner part of the side of a cell. -/
example : adoptOrphans (demoExt exactTest) false [(), ()] [boxPlc 0 0 4 4, boxPlc 20 0 4 4] [boxPlc 4 1 2 2] = .ok [boxPlc 0 0 4 4, boxPlc 20 0 4 4] :=
  (C110_no_neighbor_fails rfl (by
    intro c hc ⟨p, h1, h2⟩
    have key : ∀ c ∈ [boxPlc 0 0 4 4, boxPlc 20 0 4 4], ∀ p ∈ nodesOf (boxPlc 4 1 2 2).points, p ∉ nodesOf c.points := by decide +kernel
    exact key c hc p (mem_nodesOf.2 h1) (mem_nodesOf.2 h2))).1

theorem findEqual_spec {points : List Int} {ip : V2 Int} {old : Nat → V2 Int} : ∀ {js : List Nat}, (∀ j ∈ js, getPt points (Int.ofNat j) = .ok (old j)) →
    findEqual points ip js = .ok (if ∃ j ∈ js, old j = ip then some ip else none)
  | [], _ => by simp [findEqual]
  | j :: js, h => by
    rw [findEqual, h j (by simp), Res.bind_eq, Res.bind_ok, findEqual_spec fun k hk => h k (by simp [hk])]
    by_cases he : ip = old j
    · simp [← he]
    · simp [he, Ne.symm he]

theorem findNear_spec {e : Ext R K} {points : List Int} {ip : V2 Int} {old : Nat → V2 Int} : ∀ {js : List Nat}, (∀ j ∈ js, getPt points (Int.ofNat j) = .ok (old j)) →
    ∃ r, findNear e points ip js = .ok r ∧ (∀ q, r = some q → ∃ j ∈ js, old j = q ∧ e.dist q ip < e.tol) ∧
      (r = none → (∀ j ∈ js, e.tol < e.dist (old j) ip) ∨ ∃ j ∈ js, e.dist (old j) ip = e.tol)
  | [], _ => ⟨none, rfl, by simp, by simp⟩
  | j :: js, h => by
    obtain ⟨r, h1, h2, h3⟩ := findNear_spec (e := e) (ip := ip) (js := js) fun k hk => h k (by simp [hk])
    rw [findNear, h j (by simp), Res.bind_eq, Res.bind_ok]
    rcases lt_trichotomy (e.dist (old j) ip) e.tol with hlt | heq | hgt
    · exact ⟨some (old j), by rw [if_neg (not_lt.2 hlt.le), if_pos hlt], by simp [hlt], by simp⟩
    · exact ⟨none, by rw [if_neg (not_lt.2 heq.le), if_neg (not_lt.2 heq.ge)], by simp, fun _ => .inr ⟨j, by simp, heq⟩⟩
    · refine ⟨r, by rw [if_pos hgt, h1], fun q hq => ?_, fun hn => ?_⟩
      · obtain ⟨k, hk, hh⟩ := h2 q hq
        exact ⟨k, by simp [hk], hh⟩
      · rcases h3 hn with hh | ⟨k, hk, hh⟩
        · left
          intro k hk
          rcases List.mem_cons.1 hk with rfl | hk
          · exact hgt
          · exact hh k hk
        · exact .inr ⟨k, by simp [hk], hh⟩

/-- A vertex of the new cell becomes a vertex of the old one that is closer than the tolerance, or stays; it stays when the old cell has that very
vertex or all of its vertices are further than the tolerance; and if one is closer than the tolerance, and none at the tolerance exactly, the result is a
vertex of the old cell. -/
theorem C110_snap {e : Ext R K} {old : IPlc} {ip : V2 Int} {n : Nat} {id : Nat → Nat} {P : Nat → V2 Int} (hl : Loop old.points old.facets n id P)
    (hid : ∀ i < n, id i = i) : ∃ q, snapPt e old ip = .ok q ∧ (q = ip ∨ ∃ i < n, P i = q ∧ e.dist q ip < e.tol) ∧ ((∃ i < n, P i = ip) → q = ip) ∧
      ((∀ i < n, e.tol < e.dist (P i) ip) → q = ip) ∧
      ((∀ i < n, e.dist (P i) ip ≠ e.tol) → (∃ i < n, e.dist (P i) ip < e.tol) → ∃ i < n, P i = q) := by
  have hlen : old.facets.length = n := by rw [hl.1]; simp
  have hg : ∀ j ∈ List.range n, getPt old.points (Int.ofNat j) = .ok (P j) := by
    intro j hj
    have hj := List.mem_range.1 hj
    have := hl.2 j hj
    rw [hid j hj] at this
    exact getPt_ok this.1 this.2
  obtain ⟨r, h1, h2, h3⟩ := findNear_spec (e := e) (ip := ip) hg
  simp only [List.mem_range] at h2 h3
  unfold snapPt
  rw [hlen, findEqual_spec hg]
  simp only [List.mem_range]
  by_cases hex : ∃ i < n, P i = ip
  · exact ⟨ip, by rw [if_pos hex]; rfl, .inl rfl, fun _ => rfl, fun _ => rfl, fun _ _ => hex⟩
  · rw [if_neg hex, Res.bind_eq, Res.bind_ok]
    simp only [h1, Res.bind_eq, Res.bind_ok]
    cases r with
    | none =>
      refine ⟨ip, rfl, .inl rfl, fun _ => rfl, fun _ => rfl, fun hne ⟨i, hi, hlt⟩ => ?_⟩
      rcases h3 rfl with hh | ⟨k, hk, hh⟩
      · exact absurd (hh i hi) (not_lt.2 hlt.le)
      · exact absurd hh (hne k hk)
    | some q =>
      obtain ⟨i, hi, he, hlt⟩ := h2 q rfl
      refine ⟨q, rfl, .inr ⟨i, hi, he, hlt⟩, fun h => absurd h hex, fun hall => ?_, fun _ _ => ⟨i, hi, he⟩⟩
      have := hall i hi
      rw [he] at this
      exact absurd this (not_lt.2 hlt.le)

/-- A vertex beside a corner goes to the corner, one further away stays. -/
example : snapPt (demoExt exactTest) (boxPlc 0 0 4 4) ⟨5, 0⟩ = .ok ⟨4, 0⟩ ∧ snapPt (demoExt exactTest) (boxPlc 0 0 4 4) ⟨7, 0⟩ = .ok ⟨7, 0⟩ := by decide +kernel
example : Loop (boxPlc 0 0 4 4).points (boxPlc 0 0 4 4).facets 4 (fun i => i) (rectPt 0 0 4 4) := by unfold Loop; decide +kernel
theorem findEqual_some {points : List Int} {ip q : V2 Int} : ∀ {js : List Nat}, findEqual points ip js = .ok (some q) → q = ip
  | [], h => by simp [findEqual] at h
  | j :: js, h => by
    obtain ⟨jp, _, h⟩ := Res.bind_eq_ok.mp h
    split at h
    · rename_i he; cases h; exact he.symm
    · exact findEqual_some h

theorem getPt_has {points : List Int} {k : Nat} {p : V2 Int} (h : getPt points (Int.ofNat k) = .ok p) : points[2 * k]? = some p.x ∧ points[2 * k + 1]? = some p.y := by
  unfold getPt at h
  rw [if_neg (by simp)] at h
  obtain ⟨x, hx, h⟩ := Res.bind_eq_ok.mp h
  obtain ⟨y, hy, h⟩ := Res.bind_eq_ok.mp h
  cases h
  exact ⟨rd_eq_ok.1 hx, rd_eq_ok.1 hy⟩

theorem findNear_some {e : Ext R K} {points : List Int} {ip q : V2 Int} : ∀ {js : List Nat}, findNear e points ip js = .ok (some q) → HasPoint points q ∧ e.dist q ip < e.tol
  | [], h => by simp [findNear] at h
  | j :: js, h => by
    obtain ⟨jp, hj, h⟩ := Res.bind_eq_ok.mp h
    split at h
    · exact findNear_some h
    · split at h
      · rename_i hlt; cases h; exact ⟨⟨j, getPt_has hj⟩, hlt⟩
      · cases h

theorem snapPt_moved {e : Ext R K} {old : IPlc} {ip q : V2 Int} (h : snapPt e old ip = .ok q) : q = ip ∨ HasPoint old.points q ∧ e.dist q ip < e.tol := by
  unfold snapPt at h
  obtain ⟨r, h1, h⟩ := Res.bind_eq_ok.mp h
  cases r with
  | some jp => cases h; exact .inl (findEqual_some h1)
  | none =>
    obtain ⟨r, h2, h⟩ := Res.bind_eq_ok.mp h
    cases r with
    | some jp => cases h; exact .inr (findNear_some h2)
    | none => cases h; exact .inl rfl

theorem snapLoop_spec {e : Ext R K} {dbg : Bool} {old cell : IPlc} : ∀ {is : List Nat} {pts : List Int}, snapLoop e dbg old cell is = .ok pts →
    ∃ moved : List (V2 Int), pts = flat moved ∧ moved.length = is.length ∧ ∀ (m i : Nat), is[m]? = some i → ∃ p q : V2 Int, cell.points[2 * i]? = some p.x ∧ cell.points[2 * i + 1]? = some p.y ∧
      moved[m]? = some q ∧ (q = p ∨ HasPoint old.points q ∧ e.dist q p < e.tol)
  | [], _, h => by cases h; exact ⟨[], rfl, rfl, by simp⟩
  | i :: is, pts, h => by
    obtain ⟨_, _, h⟩ := Res.bind_eq_ok.mp h
    obtain ⟨p, hp, h⟩ := Res.bind_eq_ok.mp h
    obtain ⟨q, hq, h⟩ := Res.bind_eq_ok.mp h
    obtain ⟨rest, hrest, h⟩ := Res.bind_eq_ok.mp h
    cases h
    obtain ⟨moved, rfl, hl, hm⟩ := snapLoop_spec hrest
    refine ⟨q :: moved, rfl, by simp [hl], fun m i' hi => ?_⟩
    cases m with
    | zero =>
      simp only [List.getElem?_cons_zero, Option.some.injEq] at hi
      subst hi
      exact ⟨p, q, (getPt_has hp).1, (getPt_has hp).2, rfl, snapPt_moved hq⟩
    | succ m => simpa using hm m i' (by simpa using hi)

/-- With several neighbors: each of them gets the cell of its own generator in the tessellation of the neighborhood, without its short facets, with every
vertex kept or moved to a vertex of its old cell within the tolerance, and without the corners at which the three-point test says yes. The neighborhood
is tessellated for the points of the neighbors, in the order of the cells. -/
theorem C110_many_partial {e : Ext R K} {dbg : Bool} {points : List R} {cells orphans cells' : List IPlc} {orphan : IPlc}
    (h : adoptOrphans e dbg points cells orphans = .ok cells') (hr : e.unionReduce orphans = [orphan]) :
    ∃ nbs : List Nat, nbs.Sublist (List.range cells.length) ∧ (∀ j, j ∈ nbs ↔ ∃ c, cells[j]? = some c ∧ Touch orphan.points c.points) ∧
      (1 < nbs.length → ∃ (pts : List R) (around : List IPlc) (boundary u : IPlc) (nb nbh : List IPlc), nbs.mapM (rd points) = .ok pts ∧ nbs.mapM (rd cells) = .ok around ∧
        e.unionReduce (e.unionReduce (orphan :: around) ++ [orphan]) = u :: nb ∧ removeCollinearWith e.flat dbg u = .ok boundary ∧ e.tess pts boundary = .ok nbh ∧
        ∀ (m j : Nat), nbs[m]? = some j → ∃ old fresh s r : IPlc, cells[j]? = some old ∧ nbh[m]? = some fresh ∧ simplifyWith e.long dbg fresh = .ok s ∧
          ∃ moved : List (V2 Int), moved.length = s.facets.length ∧
            (∀ i < s.facets.length, ∃ p q : V2 Int, s.points[2 * i]? = some p.x ∧ s.points[2 * i + 1]? = some p.y ∧ moved[i]? = some q ∧
              (q = p ∨ HasPoint old.points q ∧ e.dist q p < e.tol)) ∧
            removeCollinearWith e.flat dbg ⟨flat moved, s.facets, s.holes⟩ = .ok r ∧ cells'[j]? = some r) := by
  have h := adoptOrphans_loop h
  rw [hr] at h
  refine ⟨neighbors cells orphan, List.filter_sublist, fun j => mem_neighbors, fun htwo => ?_⟩
  obtain ⟨_, _, h⟩ := Res.bind_eq_ok.mp h
  obtain ⟨_, _, h⟩ := Res.bind_eq_ok.mp h
  obtain ⟨_, _, h⟩ := Res.bind_eq_ok.mp h
  obtain ⟨nbh, hn, h⟩ := Res.bind_eq_ok.mp h
  obtain ⟨c2, h2, h⟩ := Res.bind_eq_ok.mp h
  cases h
  rw [if_pos htwo] at hn
  unfold neighborhood at hn
  obtain ⟨pts, n1, hn⟩ := Res.bind_eq_ok.mp hn
  obtain ⟨around, n2, hn⟩ := Res.bind_eq_ok.mp hn
  obtain ⟨_, _, hn⟩ := Res.bind_eq_ok.mp hn
  obtain ⟨_, _, hn⟩ := Res.bind_eq_ok.mp hn
  obtain ⟨u, n3, hn⟩ := Res.bind_eq_ok.mp hn
  obtain ⟨_, _, hn⟩ := Res.bind_eq_ok.mp hn
  obtain ⟨b, n4, hn⟩ := Res.bind_eq_ok.mp hn
  obtain ⟨_, _, hn⟩ := Res.bind_eq_ok.mp hn
  obtain ⟨_, _, hn⟩ := Res.bind_eq_ok.mp hn
  have n3 := rd_eq_ok.1 n3
  obtain ⟨nb, hnb⟩ : ∃ nb, e.unionReduce (e.unionReduce (orphan :: around) ++ [orphan]) = u :: nb := by
    generalize e.unionReduce (e.unionReduce (orphan :: around) ++ [orphan]) = l at n3
    cases l with
    | nil => simp at n3
    | cons a l => simp at n3; exact ⟨l, by rw [n3]⟩
  refine ⟨pts, around, b, u, nb, nbh, n1, n2, hnb, n4, hn, fun m j hm => ?_⟩
  obtain ⟨old, cell, r, g1, g2, g3, g4⟩ := adoptLoop_spec h2 (neighbors_nodup _ _) m j hm
  simp only [gt_iff_lt, htwo, decide_true, if_true, Nat.zero_add] at g2
  unfold cellOfMany at g2
  obtain ⟨fresh, k1, g2⟩ := Res.bind_eq_ok.mp g2
  obtain ⟨s, k2, g2⟩ := Res.bind_eq_ok.mp g2
  obtain ⟨q, k3, g2⟩ := Res.bind_eq_ok.mp g2
  cases g2
  obtain ⟨moved, rfl, hl, hmv⟩ := snapLoop_spec k3
  refine ⟨old, fresh, s, r, g1, rd_eq_ok.1 k1, k2, moved, by simpa using hl, fun i hi => hmv i i (by simp [hi]), g3, g4⟩

/-- An orphan between two cells; the neighborhood is cut in the middle, one unit off for one corner. -/
def demoExt3 : Ext Unit Int := { demoExt exactTest with
  unionReduce := fun l => if l.length ≤ 1 then l else [boxPlc 0 0 12 4]
  tess := fun _ _ => .ok [⟨[0, 1, 6, 0, 6, 4, 0, 4], [[0, 1], [1, 2], [2, 3], [3, 0]], []⟩, boxPlc 6 0 6 4] }
example : adoptOrphans demoExt3 true [(), ()] [boxPlc 0 0 4 4, boxPlc 8 0 4 4] [boxPlc 4 0 4 4] =
    .ok [⟨[6, 0, 6, 4, 0, 4, 0, 0], [[0, 1], [1, 2], [2, 3], [3, 0]], []⟩, ⟨[12, 0, 12, 4, 6, 4, 6, 0], [[0, 1], [1, 2], [2, 3], [3, 0]], []⟩] := by decide +kernel
end Verif.Props
