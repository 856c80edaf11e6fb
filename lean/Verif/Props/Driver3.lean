import Verif.Model.Driver3
import Verif.Props.Quant
import Verif.Props.Hull3
/-
C103: tessellating in three dimensions. The property is false: no call gives a mesh with cells. `quantized` is any tessellator.
-/
namespace Verif.Driver3
open Verif Verif.Mesh Verif.Geom Verif.Hull3 Verif.Hash
variable {quantized : List (Int × Int × Int) → Res Unit} {big eps tol : ℝ} {procs : List (List (V3 ℝ))} {points : List (V3 ℝ)}

/-- With assertions no call of `tessellate` returns, whatever the generators, the boundary and the tessellator are. -/
theorem C103_checked_fails (b : Bound) (m : Tess ℝ) : tess3 quantized true big procs points b ≠ .ok m := by
  have hq : ∀ {bd q}, quant3 true big bd points ≠ .ok q := by
    intro bd q h
    unfold quant3 at h
    obtain ⟨_, _, h⟩ := Res.bind_eq_ok.mp h
    obtain ⟨_, _, h⟩ := Res.bind_eq_ok.mp h
    obtain ⟨_, _, h⟩ := Res.bind_eq_ok.mp h
    obtain ⟨_, _, h⟩ := Res.bind_eq_ok.mp h
    exact C36_3d_debug_fails h
  have hin : ∀ verts g, in3 quantized true big points verts g ≠ .ok m := by
    intro verts g h
    unfold in3 at h
    obtain ⟨_, _, h⟩ := Res.bind_eq_ok.mp h
    obtain ⟨_, _, h⟩ := Res.bind_eq_ok.mp h
    obtain ⟨_, h', _⟩ := Res.bind_eq_ok.mp h
    exact hq h'
  intro h
  cases b with
  | free =>
    unfold tess3 free3 at h
    obtain ⟨_, _, h⟩ := Res.bind_eq_ok.mp h
    obtain ⟨_, _, h⟩ := Res.bind_eq_ok.mp h
    obtain ⟨_, h', _⟩ := Res.bind_eq_ok.mp h
    exact hq h'
  | box lo hi =>
    unfold tess3 box3 at h
    obtain ⟨_, _, h⟩ := Res.bind_eq_ok.mp h
    exact hin _ _ h
  | plc verts g => exact hin verts g h
  | reduced verts g => exact hin verts g h

theorem boundary_empty : findBoundaryElements false ({} : Tess ℝ) = .ok ([], []) := by
  unfold findBoundaryElements
  simp [boundaryLoop, uniq]

/-- Without assertions every call of `tessellate` that returns leaves the mesh empty: no nodes, faces or cells, whatever the generators, the boundary and the tessellator are. -/
theorem C103_unchecked_fails {b : Bound} {m : Tess ℝ} (h : tess3 quantized false big procs points b = .ok m) : m = {} := by
  have hin : ∀ verts g, in3 quantized false big points verts g = .ok m → m = {} := by
    intro verts g h
    unfold in3 fill3 Snap.snap3 clip3 at h
    obtain ⟨_, _, h⟩ := Res.bind_eq_ok.mp h
    obtain ⟨_, _, h⟩ := Res.bind_eq_ok.mp h
    obtain ⟨_, _, h⟩ := Res.bind_eq_ok.mp h
    obtain ⟨_, _, h⟩ := Res.bind_eq_ok.mp h
    simp only [Res.assert_release, Res.bind_eq, Res.bind_ok, Res.pure_eq, boundary_empty, Res.ok.injEq] at h
    exact h.symm
  cases b with
  | free =>
    unfold tess3 free3 fill3 at h
    obtain ⟨_, _, h⟩ := Res.bind_eq_ok.mp h
    obtain ⟨_, _, h⟩ := Res.bind_eq_ok.mp h
    obtain ⟨_, _, h⟩ := Res.bind_eq_ok.mp h
    obtain ⟨_, _, h⟩ := Res.bind_eq_ok.mp h
    simp only [Res.assert_release, Res.bind_eq, Res.bind_ok, Res.pure_eq, boundary_empty, Res.ok.injEq] at h
    exact h.symm
  | box lo hi =>
    unfold tess3 box3 at h
    obtain ⟨_, _, h⟩ := Res.bind_eq_ok.mp h
    exact hin _ _ h
  | plc verts g => exact hin verts g h
  | reduced verts g => exact hin verts g h

theorem quant_ok {bd : List (List (V3 ℝ))} (hr : InRange3 big bd.flatten) {b : HBox3} (hb : IsBox3 bd.flatten b) (hext : b.lo.x < b.hi.x ∨ b.lo.y < b.hi.y ∨ b.lo.z < b.hi.z) (hin : ∀ p ∈ points, inBox3 b p) :
    ∃ q, quant3 false big bd points = .ok q ∧ q.length = points.length := by
  have h0 : bd.flatten ≠ [] := by
    obtain ⟨p, hp, _⟩ := hb.low.1
    exact List.ne_nil_of_mem hp
  obtain ⟨bx, by', bz, h1, h2⟩ := box_ok false hr h0
  have := isBox3_unique h2 hb
  subst this
  obtain ⟨q, hq, hl, -⟩ := C36_3d_partial hext (points := points) (fun p hp => by
    obtain ⟨⟨a, b⟩, ⟨c, d⟩, e, f⟩ := hin p hp
    exact ⟨a, b, c, d, e, f⟩) rfl
  refine ⟨q, ?_, hl⟩
  unfold quant3
  rw [h1]
  exact hq

/-- Without assertions these calls do return, without a sign that nothing was done: for all generators that are not all the same and every tessellator that returns, without boundary, and in every boundary around the
generators. -/
theorem C103_silent_fails (hq : ∀ q, quantized q = .ok ()) {b : HBox3} (hext : b.lo.x < b.hi.x ∨ b.lo.y < b.hi.y ∨ b.lo.z < b.hi.z) (hin : ∀ p ∈ points, inBox3 b p) :
    (InRange3 big procs.flatten → IsBox3 procs.flatten b → tess3 quantized false big procs points .free = .ok {}) ∧
    ∀ verts g, InRange3 big verts → IsBox3 verts b → tess3 quantized false big procs points (.plc verts g) = .ok {} ∧ tess3 quantized false big procs points (.reduced verts g) = .ok {} := by
  constructor
  · intro hr hb
    obtain ⟨q, h1, -⟩ := quant_ok hr hb hext hin
    unfold tess3 free3 fill3
    simp only [Res.assert_release, Res.bind_eq, Res.bind_ok, h1, hq, Res.pure_eq, boundary_empty]
  · intro verts g hr hb
    obtain ⟨q, h1, -⟩ := quant_ok (bd := [verts]) (by simpa using hr) (by simpa using hb) hext hin
    have : in3 quantized false big points verts g = .ok {} := by
      unfold in3 fill3 clip3 Snap.snap3
      simp only [Res.assert_release, Res.bind_eq, Res.bind_ok, h1, hq, Res.pure_eq, boundary_empty]
    exact ⟨this, this⟩

/-- `tessellateDegenerate` on a platform with wrapping shifts, without assertions: whenever it returns, the numbers it returns are those of the first generators with the same hash, but the mesh has no cells with these numbers. -/
theorem C103_degenerate_fails (shift : Points.Key → Nat → Points.Key) (he : 0 < eps) {b : Bound} {m : Tess ℝ} {ix : List Nat} {box : HBox3} (hbox : uniqueBox false big procs b = .ok box) (hin : ∀ p ∈ points, inBox3 box p)
    (h : degenerate3 (Points.wrapping shift) quantized false big eps tol procs points b = .ok (m, ix)) :
    m.cells = [] ∧ ∃ u, FirstOf (fun p q => hashOf shift eps tol box p = hashOf shift eps tol box q) points u ix := by
  unfold degenerate3 at h
  rw [hbox] at h
  obtain ⟨_, h', h⟩ := Res.bind_eq_ok.mp h
  cases h'
  obtain ⟨us, _, h⟩ := Res.bind_eq_ok.mp h
  obtain ⟨u, hu, h⟩ := Res.bind_eq_ok.mp h
  obtain ⟨m', hm, h⟩ := Res.bind_eq_ok.mp h
  obtain ⟨uniq, ix', h1, h2⟩ := unique3_ok shift false (tol := tol) he (b := box) (by simp) hin
  rw [h1] at hu
  cases hu
  cases h
  exact ⟨by rw [C103_unchecked_fails hm], uniq, h2⟩

theorem uniqueBox_ok {ps : List (List (V3 ℝ))} (hr : InRange3 big ps.flatten) {b : HBox3} (hb : IsBox3 ps.flatten b) : uniqueBox.of false big ps = .ok b := by
  have h0 : ps.flatten ≠ [] := by
    obtain ⟨p, hp, _⟩ := hb.low.1
    exact List.ne_nil_of_mem hp
  obtain ⟨bx, by', bz, h1, h2⟩ := box_ok false hr h0
  have := isBox3_unique h2 hb
  subst this
  unfold uniqueBox.of
  rw [h1]
  rfl

/-- The same with the box named: it is the one that was passed, or the smallest one around the generators of all processes, or around the
points of the boundary. -/
theorem C103_degenerate_box_fails (shift : Points.Key → Nat → Points.Key) (he : 0 < eps) {b : Bound} {m : Tess ℝ} {ix : List Nat} {box : HBox3}
    (hbox : match b with
      | .box lo hi => box.lo = lo ∧ box.hi = hi
      | .free => InRange3 big procs.flatten ∧ IsBox3 procs.flatten box
      | .plc verts _ => InRange3 big verts ∧ IsBox3 verts box
      | .reduced verts _ => InRange3 big verts ∧ IsBox3 verts box)
    (hin : ∀ p ∈ points, inBox3 box p)
    (h : degenerate3 (Points.wrapping shift) quantized false big eps tol procs points b = .ok (m, ix)) :
    m.cells = [] ∧ ∃ u, FirstOf (fun p q => hashOf shift eps tol box p = hashOf shift eps tol box q) points u ix := by
  refine C103_degenerate_fails shift he ?_ hin h
  cases b with
  | box lo hi => obtain ⟨rfl, rfl⟩ := hbox; rfl
  | free => exact uniqueBox_ok hbox.1 hbox.2
  | plc verts g => exact uniqueBox_ok (ps := [verts]) (by simpa using hbox.1) (by simpa using hbox.2)
  | reduced verts g => exact uniqueBox_ok (ps := [verts]) (by simpa using hbox.1) (by simpa using hbox.2)

/-- In a boundary around the generators the call does return, for every tessellator that returns. -/
theorem C103_degenerate_silent_fails (shift : Points.Key → Nat → Points.Key) (he : 0 < eps) (hq : ∀ q, quantized q = .ok ()) {box : HBox3}
    (hext : box.lo.x < box.hi.x ∨ box.lo.y < box.hi.y ∨ box.lo.z < box.hi.z) {verts : List (V3 ℝ)} (hr : InRange3 big verts) (hb : IsBox3 verts box)
    (hin : ∀ p ∈ points, inBox3 box p) (g : PLC) :
    ∃ ix, degenerate3 (Points.wrapping shift) quantized false big eps tol [] points (.plc verts g) = .ok ({}, ix) := by
  obtain ⟨uniq, ix, h1, h2⟩ := unique3_ok shift false (tol := tol) he (b := box) (by simp) hin
  have hu : ∀ p ∈ uniq, inBox3 box p := by
    intro p hp
    obtain ⟨k, hk⟩ := List.getElem?_of_mem hp
    obtain ⟨i, hi, _⟩ := h2.first k p hk
    exact hin p (List.mem_of_getElem? hi)
  have ht := ((C103_silent_fails (procs := []) hq hext hu).2 verts g hr hb).1
  refine ⟨ix, ?_⟩
  unfold degenerate3
  have hbx : uniqueBox false big [] (.plc verts g) = .ok box := uniqueBox_ok (ps := [verts]) (by simpa using hr) (by simpa using hb)
  simp only [hbx, Res.bind_eq, Res.bind_ok, List.mapM_nil, Res.pure_eq, h1, List.map_nil, ht]

example : ∃ ix, degenerate3 (Points.wrapping fun x _ => x) (fun _ => .ok ()) false 10 1 0 [] [⟨0, 0, 0⟩, ⟨1, 1, 1⟩, ⟨0, 0, 0⟩]
    (.plc [⟨0, 0, 0⟩, ⟨1, 0, 0⟩, ⟨0, 1, 0⟩, ⟨0, 0, 1⟩] ⟨[], []⟩) = .ok ({}, ix) :=
  C103_degenerate_silent_fails _ one_pos (fun _ => rfl) (box := ⟨⟨0, 0, 0⟩, ⟨1, 1, 1⟩⟩) (by norm_num) (by simp [InRange3])
    ⟨by simp [inBox3], by simp, by simp⟩ (by simp [inBox3]) _

/-- Four generators in a box of 8 points: the hypotheses hold, also with an even number of generators, which the assertions ask for. -/
example : tess3 (fun _ => .ok ()) false 10 [[⟨0, 0, 0⟩, ⟨1, 0, 0⟩, ⟨0, 1, 0⟩, ⟨0, 0, 1⟩]] [⟨0, 0, 0⟩, ⟨1, 0, 0⟩, ⟨0, 1, 0⟩, ⟨0, 0, 1⟩] .free = .ok {} :=
  (C103_silent_fails (fun _ => rfl) (b := ⟨⟨0, 0, 0⟩, ⟨1, 1, 1⟩⟩) (by norm_num) (by simp [inBox3])).1
    (by simp [InRange3]) ⟨by simp [inBox3], by simp, by simp⟩
end Verif.Driver3
