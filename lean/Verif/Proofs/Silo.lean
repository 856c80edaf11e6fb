import Verif.Spec.Silo
import Verif.Proofs.Hull3
import Verif.Proofs.Box
import Verif.Props.Neighbors
/-
Lemmas for the properties of the Silo writers.
-/
namespace Verif
namespace Silo
open Mesh

theorem cut_flatten {α : Type} : ∀ (ls : List (List α)) (rest : List α), cut (ls.map List.length) (ls.flatten ++ rest) = ls
  | [], _ => rfl
  | l :: ls, rest => by
    simp only [List.map_cons, List.flatten_cons, cut, List.append_assoc, List.take_left', List.drop_left', cut_flatten ls rest]

theorem cut_flatten' {α : Type} (ls : List (List α)) : cut (ls.map List.length) ls.flatten = ls := by
  have := cut_flatten ls []
  rwa [List.append_nil] at this

theorem zones_flatten : ∀ (ls : List (List Int)), zones ls.length (ls.flatMap fun r => (r.length : Int) :: r) = ls
  | [] => rfl
  | l :: ls => by
    simp only [List.length_cons, List.flatMap_cons, List.cons_append, zones, Int.toNat_natCast, List.take_left', List.drop_left', zones_flatten ls]

theorem lens_toNat {α : Type} (ls : List (List α)) : (ls.map fun c => (c.length : Int)).map Int.toNat = ls.map List.length := by
  rw [List.map_map]
  exact List.map_congr_left fun c _ => by simp

theorem coordArrays_ok {R : Type} {dim : Nat} (h : 0 < dim) (m : Tess R) : ∃ a, coordArrays dim m = .ok a ∧ HasNodes dim m a := by
  obtain ⟨r, e, hl, hr⟩ := Nbr.mapM_exists (g := fun d => (List.range (m.nodes.length / dim)).mapM fun i => rd m.nodes (dim * i + d))
    (P := fun d a => a.length = m.nodes.length / dim ∧ ∀ i < m.nodes.length / dim, a[i]? = m.nodes[dim * i + d]?) (List.range dim) (by
      intro d hd
      rw [List.mem_range] at hd
      obtain ⟨r, e, hl, hr⟩ := Nbr.mapM_exists (g := fun i => rd m.nodes (dim * i + d)) (P := fun i b => m.nodes[dim * i + d]? = some b)
        (List.range (m.nodes.length / dim)) (by
          intro i hi
          rw [List.mem_range] at hi
          have h1 : (i + 1) * dim ≤ m.nodes.length := (Nat.mul_le_mul_right _ hi).trans (Nat.div_mul_le_self _ _)
          have : dim * i + d < m.nodes.length := by nlinarith
          exact ⟨_, rd_lt this, by simp [this]⟩)
      rw [List.length_range] at hl
      refine ⟨r, e, hl, fun i hi => ?_⟩
      have hi' : i < r.length := by omega
      rw [hr i i r[i] (by simp [hi]) (by simp [hi'])]
      simp [hi'])
  rw [List.length_range] at hl
  refine ⟨r, e, hl, ?_, ?_⟩
  · intro a ha
    obtain ⟨d, hd, rfl⟩ := List.getElem_of_mem ha
    exact (hr d d r[d] (by rw [List.getElem?_range (by omega)]) (by simp)).1
  · intro d i hd hi
    have hd' : d < r.length := by omega
    rw [List.getElem?_eq_getElem hd', Option.bind_some]
    exact (hr d d r[d] (by rw [List.getElem?_range (by omega)]) (by simp)).2 i hi

theorem vars_ok {R : Type} {n : Nat} {fs : List (String × List R)} (h : ∀ f ∈ fs, f.2.length = n) :
    ∃ vs, vars n fs = .ok vs ∧ HasFields fs vs := by
  refine ⟨fs.map fun f => ⟨f.1, f.2⟩, ?_, ?_⟩
  · refine Geom.mapM_ok (f := fun f => (⟨f.1, f.2⟩ : Var R)) fs fun f hf => ?_
    rw [readN, if_pos (h f hf).ge, Res.ok_bind, ← h f hf, List.take_length]
    rfl
  · rw [HasFields, List.map_map]
    exact List.map_id _

theorem hullArray_ok {R : Type} (m : Tess R) : HasHull m.convexHull.facets (hullArray m) := by
  generalize hf : m.convexHull.facets = fs
  have e0 : (hullArray m).elem 0 = [(fs.length : Int)] := by
    simp [hullArray, Compound.elem, cut, hf]
  have e1 : (hullArray m).elem 1 = fs.map fun f => (f.length : Int) := by
    simp [hullArray, Compound.elem, cut, hf]
  have e2 : (hullArray m).elem 2 = fs.flatten := by
    simp only [hullArray, Compound.elem, cut, hf, List.map_cons, List.map_nil, List.length_cons, List.length_append, List.length_map, List.cons_append]
    have hd : (fs.length : Int).toNat = (fs.map fun f => (f.length : Int)).length := by simp
    simp only [List.getD_eq_getElem?_getD, List.getElem?_cons_succ, List.getElem?_cons_zero, Option.getD_some, Int.toNat_one, List.drop_succ_cons, List.drop_zero,
      hd, List.drop_left', List.flatMap_id']
    rw [List.take_of_length_le]
    push_cast
    omega
  refine ⟨rfl, ?_, e0, e1, ?_⟩
  · simp [hullArray, hf]
    omega
  rw [e1, e2, lens_toNat]
  exact cut_flatten' _

theorem connArray_ok {R : Type} (rev : Bool) {m : Tess R} (h : ∀ s ∈ m.faceCells, s ≠ []) :
    connArray rev m = .ok
      { elemNames := ["ncellfaces", "cellfaces", "facecells"]
        elemLengths := [(m.cells.length : Int), 2 * m.faces.length - m.cells.length,
          m.cells.length + (m.cells.flatMap fun c => c).length + 2 * m.faceCells.length - 2 * m.faces.length]
        data := m.cells.map (fun c => (c.length : Int)) ++ m.cells.flatMap (fun c => c.map fun j => if rev then (posID j : Int) else j) ++
          m.faceCells.flatMap fun s => [s.headD 0, s.headD 0] } := by
  have h0 : m.faceCells.mapM (fun c => rd c 0) = .ok (m.faceCells.map fun s => s.headD 0) :=
    Geom.mapM_ok (f := fun s : List Int => s.headD 0) _ fun s hs => by
      cases s with
      | nil => exact absurd rfl (h _ hs)
      | cons a s => rfl
  have hlen : ∀ ls : List (List Int), (ls.flatMap fun s => [s.headD 0, s.headD 0]).length = 2 * ls.length := by
    intro ls
    induction ls with
    | nil => rfl
    | cons a l ih => rw [List.flatMap_cons, List.length_append, ih]; simp; omega
  have hlen' : ∀ ls : List (List Int), (ls.flatMap fun c => c.map fun j => if rev then (posID j : Int) else j).length = (ls.flatMap fun c => c).length := by
    intro ls
    induction ls with
    | nil => rfl
    | cons a l ih => rw [List.flatMap_cons, List.length_append, ih]; simp
  have e2 : ((m.faceCells.map fun s => s.headD 0).flatMap fun c => [c, c]) = m.faceCells.flatMap fun s => [s.headD 0, s.headD 0] := by
    rw [List.flatMap_map]
  rw [connArray, h0, Res.ok_bind]
  simp only [e2, List.length_append, hlen, hlen', List.length_map]
  rw [Res.pure_eq]
  push_cast
  congr 3
  simp only [List.cons.injEq, and_true, true_and]
  ring

end Silo
end Verif
