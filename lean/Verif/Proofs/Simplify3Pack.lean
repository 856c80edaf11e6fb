import Verif.Proofs.Simplify3Loop
import Verif.Proofs.Box
/- The last part of the 3D version of `simplifyPLCfacets`: points that are not in use are taken out. -/
namespace Verif.Simplify3
open Verif Verif.Mesh Verif.Internal Verif.Geom
open Verif.Simplify (Plc rdi number compact renumber keep rank maskOf keep_sublist keep_get keep_mem compact_spec renumber_eq)

theorem useMask_ok {n : Nat} {new : List (List Int)} (h : ∀ k ∈ new.flatten, 0 ≤ k ∧ k < n) :
    ∃ bs : List Bool, bs.length = n ∧ (∀ i : Nat, bs[i]? = some true ↔ (i : Int) ∈ new.flatten) ∧ useMask n new = .ok (maskOf bs) := by
  have key : ∀ (l : List Int) (bs : List Bool), bs.length = n → (∀ k ∈ l, 0 ≤ k ∧ k < n) →
      ∃ bs' : List Bool, bs'.length = n ∧ (∀ i : Nat, bs'[i]? = some true ↔ bs[i]? = some true ∨ (i : Int) ∈ l) ∧
        l.foldlM (fun mask k => if 0 ≤ k then wr mask k.toNat 1 else Res.ub) (maskOf bs) = .ok (maskOf bs') := by
    intro l
    induction l with
    | nil => intro bs hb _; exact ⟨bs, hb, by simp, rfl⟩
    | cons k l ih =>
      intro bs hb hk
      obtain ⟨k1, k2⟩ := hk k (by simp)
      have hl : k.toNat < bs.length := by omega
      obtain ⟨bs', e1, e2, e3⟩ := ih (bs.set k.toNat true) (by simpa using hb) fun j hj => hk j (by simp [hj])
      refine ⟨bs', e1, fun i => ?_, ?_⟩
      · rw [e2, List.mem_cons]
        rcases Nat.lt_trichotomy i k.toNat with e | e | e
        · rw [List.getElem?_set_ne (by omega)]
          have : (i : Int) ≠ k := by omega
          simp [this]
        · subst e
          rw [List.getElem?_set_self hl]
          have : ((k.toNat : Nat) : Int) = k := by omega
          simp [this]
        · rw [List.getElem?_set_ne (by omega)]
          have : (i : Int) ≠ k := by omega
          simp [this]
      · rw [List.foldlM_cons, Res.bind_eq, if_pos k1, wr_lt (by simpa [maskOf] using hl), Res.bind_ok]
        rw [show (maskOf bs).set k.toNat 1 = maskOf (bs.set k.toNat true) by simp [maskOf, List.map_set]]
        exact e3
  obtain ⟨bs, e1, e2, e3⟩ := key new.flatten (List.replicate n false) (by simp) h
  refine ⟨bs, e1, fun i => ?_, ?_⟩
  · rw [e2]
    simp [List.getElem?_replicate]
  · rw [← e3]
    unfold useMask
    simp [maskOf]

/-- The points at the positions in a facet. -/
def cornersZ {V : Type} (z : V) (points : List V) (f : List Int) : List V := f.map fun k => points.getD k.toNat z

/-- L322-347 -/
theorem pack_ok {V : Type} (z : V) {dbg : Bool} {pts : List V} {new : List (List Int)} (h : ∀ k ∈ new.flatten, 0 ≤ k ∧ k < pts.length) {r : Plc V}
    (hr : (do
      let mask ← useMask pts.length new
      let num := number mask 0
      let pts' ← compact dbg num.1 0 pts
      let fs ← new.mapM fun f : List Int => f.mapM (renumber dbg num.1)
      return ({ facets := fs, points := pts'.take num.2 } : Plc V)) = .ok r) :
    r.holes = [] ∧ r.points.Sublist pts ∧ (∀ f ∈ r.facets, ∀ k ∈ f, 0 ≤ k ∧ k < r.points.length) ∧ r.facets.map (cornersZ z r.points) = new.map (cornersZ z pts) ∧
      ∀ p ∈ r.points, ∃ f ∈ new, p ∈ cornersZ z pts f := by
  obtain ⟨bs, b1, b2, b3⟩ := useMask_ok h
  obtain ⟨pts', c1, c2⟩ := compact_spec dbg bs 0 0 pts le_rfl (by omega)
  simp only [List.take_zero, List.nil_append, List.drop_zero] at c2
  simp only [Res.bind_eq, b3, Res.bind_ok, c1] at hr
  have hm : new.mapM (fun f => f.mapM (renumber dbg (number (maskOf bs) 0).1)) = .ok (new.map fun f => f.map fun k => ((rank bs k.toNat : Nat) : Int)) := by
    refine Geom.mapM_ok (f := fun f : List Int => f.map fun k => ((rank bs k.toNat : Nat) : Int)) new fun f hf => ?_
    refine Geom.mapM_ok (f := fun k : Int => ((rank bs k.toNat : Nat) : Int)) f fun k hk => ?_
    have hk' : k ∈ new.flatten := List.mem_flatten.2 ⟨f, hf, hk⟩
    have e : ((k.toNat : Nat) : Int) = k := by have := (h k hk').1; omega
    have := renumber_eq dbg ((b2 k.toNat).2 (by rwa [e]))
    rwa [e] at this
  rw [hm, Res.bind_ok, Res.pure_eq] at hr
  cases hr
  rw [c2]
  have hget : ∀ f ∈ new, ∀ k ∈ f, (keep pts bs)[rank bs k.toNat]? = some (pts.getD k.toNat z) := by
    intro f hf k hk
    have hk' : k ∈ new.flatten := List.mem_flatten.2 ⟨f, hf, hk⟩
    have hb := h k hk'
    have e : ((k.toNat : Nat) : Int) = k := by omega
    exact keep_get pts bs _ _ (getD_lt (by omega) z) ((b2 k.toNat).2 (by rwa [e]))
  refine ⟨rfl, keep_sublist _ _, ?_, ?_, ?_⟩
  · intro f hf k hk
    obtain ⟨g, hg, rfl⟩ := List.mem_map.1 hf
    obtain ⟨j, hj, rfl⟩ := List.mem_map.1 hk
    have := (List.getElem?_eq_some_iff.1 (hget g hg j hj)).1
    dsimp only
    omega
  · rw [List.map_map]
    refine List.map_congr_left fun f hf => ?_
    simp only [cornersZ, Function.comp, List.map_map]
    refine List.map_congr_left fun k hk => ?_
    simp only [Function.comp, Int.toNat_natCast]
    exact getD_of (hget f hf k hk) z
  · intro p hp
    obtain ⟨i, h1, h2⟩ := keep_mem _ _ _ hp
    rw [b2] at h2
    obtain ⟨f, hf, hi⟩ := List.mem_flatten.1 h2
    exact ⟨f, hf, List.mem_map.2 ⟨i, hi, by rw [Int.toNat_natCast, getD_of h1]⟩⟩

end Verif.Simplify3
