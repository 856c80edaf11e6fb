import Verif.Spec.PLC
import Verif.Spec.Editor
import Verif.Proofs.Restrict
import Mathlib.Tactic.Common
import Mathlib.Tactic.Ring
import Mathlib.Tactic.Linarith
import Mathlib.Data.List.Nodup
/- Proofs for PLC construction. -/
namespace Verif.Geom
open Verif Verif.Mesh
variable {R : Type}

theorem pt_flatMap {α : Type} {D : Nat} {g : α → List R} : ∀ {k : List α}, (∀ a ∈ k, (g a).length = D) → ∀ (j : Nat) (hj : j < k.length),
    pt D (k.flatMap g) (j : Int) = g k[j]
  | a :: k, h, 0, _ => by
    have := h a (by simp)
    simp [pt, this]
  | a :: k, h, j + 1, hj => by
    have ha := h a (by simp)
    have := pt_flatMap (k := k) (fun n hn => h n (by simp [hn])) j (by simpa using hj)
    simp only [List.getElem_cons_succ]
    rw [← this]
    simp only [pt, List.flatMap_cons, Int.toNat_natCast]
    rw [show D * (j + 1) = (g a).length + D * j by rw [ha]; ring, ← List.drop_drop, List.drop_left]

theorem length_flatMap_const {α : Type} {D : Nat} {g : α → List R} : ∀ {k : List α}, (∀ a ∈ k, (g a).length = D) → (k.flatMap g).length = D * k.length
  | [], _ => by simp
  | a :: k, h => by
    rw [List.flatMap_cons, List.length_append, h a (by simp), length_flatMap_const fun b hb => h b (by simp [hb]), List.length_cons]; ring

theorem pt_length {D : Nat} {all : List R} {i : Int} (h : D * (i.toNat + 1) ≤ all.length) : (pt D all i).length = D := by
  rw [pt, List.length_take, List.length_drop]
  rw [Nat.mul_add, Nat.mul_one] at h
  omega

theorem mul_le_of_lt_div {D n i : Nat} (h : i < n / D) : D * (i + 1) ≤ n :=
  (Nat.mul_le_mul_left D h).trans (Nat.mul_div_le n D)

theorem copyPoints_ok {D : Nat} {all : List R} : ∀ {ids : List Int}, (∀ i ∈ ids, 0 ≤ i ∧ i < ((all.length / D : Nat) : Int)) →
    copyPoints D all ids = .ok (ids.flatMap (pt D all))
  | [], _ => rfl
  | i :: is, h => by
    obtain ⟨h0, h1⟩ := h i (by simp)
    have h2 : D * (i.toNat + 1) ≤ all.length := mul_le_of_lt_div (by omega)
    rw [copyPoints, if_pos ⟨h0, h2⟩]
    simp only [Res.bind_eq, Res.bind_ok]
    rw [copyPoints_ok fun j hj => h j (by simp [hj])]
    simp [pt]

theorem copyPoints_ub {D : Nat} {all : List R} : ∀ {ids : List Int} {i : Int}, i ∈ ids → ¬ (0 ≤ i ∧ D * (i.toNat + 1) ≤ all.length) →
    copyPoints D all ids = .ub
  | j :: is, i, hi, hb => by
    rw [copyPoints]
    by_cases hj : 0 ≤ j ∧ D * (j.toNat + 1) ≤ all.length
    · rw [if_pos hj]
      have : i ∈ is := by
        rcases List.mem_cons.1 hi with rfl | h
        · exact absurd hj hb
        · exact h
      simp [copyPoints_ub this hb]
    · rw [if_neg hj]; simp

section reduced
variable {D : Nat} {plc : PLC} {all : List R} {r : RPLC R}

theorem ids_mem {i : Int} : i ∈ setAddAll [] plc.facets.flatten ↔ ∃ f ∈ plc.facets, i ∈ f := by
  rw [mem_setAddAll]; simp

theorem ids_nodup : (setAddAll [] plc.facets.flatten).Nodup :=
  (sorted_setAddAll _ _ List.Pairwise.nil).imp fun h => ne_of_lt h

/-- The result of the constructor, with the sorted list of used ids. -/
theorem reducedPLC_ok (h : InRange (all.length / D) plc.facets) :
    reducedPLC D plc all = .ok { facets := plc.facets.map (·.map (newID (setAddAll [] plc.facets.flatten))), holes := plc.holes,
                                 points := (setAddAll [] plc.facets.flatten).flatMap (pt D all) } := by
  unfold reducedPLC
  dsimp only
  rw [copyPoints_ok]
  · rfl
  · intro i hi
    obtain ⟨f, hf, hif⟩ := ids_mem.1 hi
    exact h f hf i hif

theorem newID_spec {ids : List Int} {i : Int} (hi : i ∈ ids) : ∃ k : Nat, newID ids i = k ∧ ∃ hk : k < ids.length, ids[k] = i := by
  refine ⟨ids.idxOf i, by rw [newID, if_pos hi], List.idxOf_lt_length_of_mem hi, List.getElem_idxOf _⟩

theorem ids_pt_length (h : InRange (all.length / D) plc.facets) : ∀ a ∈ setAddAll [] plc.facets.flatten, (pt D all a).length = D := by
  intro a ha
  obtain ⟨f, hf, hif⟩ := ids_mem.1 ha
  have := h f hf a hif
  exact pt_length (mul_le_of_lt_div (by omega))

theorem reducedPLC_spec (hD : 0 < D) (h : InRange (all.length / D) plc.facets) : ∃ r, reducedPLC D plc all = .ok r ∧
    r.facets.map (facetCoords D r.points) = plc.facets.map (facetCoords D all) ∧
    D ∣ r.points.length ∧ InRange (r.points.length / D) r.facets ∧ AllUsed (r.points.length / D) r.facets ∧ r.holes = plc.holes ∧
    ∃ ids : List Int, ids.Nodup ∧ ids.length = r.points.length / D ∧ r.facets.map (·.map fun i => ids.getD i.toNat 0) = plc.facets ∧
      (∀ k (hk : k < ids.length), pt D r.points (k : Int) = pt D all ids[k]) := by
  refine ⟨_, reducedPLC_ok h, ?_⟩
  have hlen : ((setAddAll [] plc.facets.flatten).flatMap (pt D all)).length = D * (setAddAll [] plc.facets.flatten).length :=
    length_flatMap_const (ids_pt_length h)
  have hdiv : D * (setAddAll [] plc.facets.flatten).length / D = (setAddAll [] plc.facets.flatten).length := Nat.mul_div_cancel_left _ hD
  dsimp only
  rw [hlen, hdiv]
  refine ⟨?_, ⟨_, rfl⟩, ?_, ?_, rfl, _, ids_nodup, rfl, ?_, fun k hk => pt_flatMap (ids_pt_length h) k hk⟩
  · rw [List.map_map]
    refine List.map_congr_left fun f hf => ?_
    simp only [Function.comp, facetCoords, List.map_map]
    refine List.map_congr_left fun i hi => ?_
    obtain ⟨k, hk, hkl, e⟩ := newID_spec (ids_mem.2 ⟨f, hf, hi⟩)
    simp only [Function.comp]
    rw [hk, pt_flatMap (ids_pt_length h) k hkl, e]
  · intro f hf i hi
    obtain ⟨g, hg, rfl⟩ := List.mem_map.1 hf
    obtain ⟨j, hj, rfl⟩ := List.mem_map.1 hi
    obtain ⟨k, hk, hkl, e⟩ := newID_spec (ids_mem.2 ⟨g, hg, hj⟩)
    rw [hk]; omega
  · intro k hk
    have hm := List.getElem_mem hk
    obtain ⟨f, hf, hi⟩ := ids_mem.1 hm
    refine ⟨_, List.mem_map_of_mem hf, ?_⟩
    have : newID (setAddAll [] plc.facets.flatten) (setAddAll [] plc.facets.flatten)[k] = (k : Int) := by
      rw [newID, if_pos hm, List.Nodup.idxOf_getElem ids_nodup]
    rw [← this]
    exact List.mem_map_of_mem hi
  · rw [List.map_map]
    conv_rhs => rw [← List.map_id plc.facets]
    refine List.map_congr_left fun f hf => ?_
    simp only [Function.comp, List.map_map, id]
    conv_rhs => rw [← List.map_id f]
    refine List.map_congr_left fun i hi => ?_
    obtain ⟨k, hk, hkl, e⟩ := newID_spec (ids_mem.2 ⟨f, hf, hi⟩)
    simp only [Function.comp, id]
    rw [hk, Int.toNat_natCast]
    simp [List.getD, hkl, e]

theorem reducedPLC_hole (h : InRange (all.length / D) plc.facets) (hr : reducedPLC D plc all = .ok r) {i : Int} (hi0 : 0 ≤ i)
    (hi : i < ((all.length / D : Nat) : Int)) (hD : 0 < D) (hne : ∀ g ∈ plc.facets, ∀ j ∈ g, pt D all j ≠ pt D all i) :
    pt D r.points i ≠ pt D all i := by
  rw [reducedPLC_ok h] at hr
  cases hr
  obtain ⟨k, rfl⟩ := Int.eq_ofNat_of_zero_le hi0
  by_cases hk : k < (setAddAll [] plc.facets.flatten).length
  · dsimp only
    rw [pt_flatMap (ids_pt_length h) k hk]
    obtain ⟨f, hf, hif⟩ := ids_mem.1 (List.getElem_mem hk)
    exact hne f hf _ hif
  · intro e
    have h1 : (pt D all (k : Int)).length = D := pt_length (mul_le_of_lt_div (by omega))
    have h2 : pt D ((setAddAll [] plc.facets.flatten).flatMap (pt D all)) (k : Int) = [] := by
      rw [pt, List.drop_eq_nil_of_le, List.take_nil]
      rw [length_flatMap_const (ids_pt_length h), Int.toNat_natCast]
      exact Nat.mul_le_mul_left D (not_lt.1 hk)
    rw [← e, h2] at h1
    simp at h1; omega

end reduced

/-! ### Boxes -/

theorem makeBox2_ok {r : RPLC R} {x1 y1 x2 y2 : R} (h : ∀ f ∈ r.facets, f.length = 2) :
    makeBoxPLC2 r x1 y1 x2 y2 = .ok { r with points := [x1, y1, x2, y1, x2, y2, x1, y2], facets := [[0, 1], [1, 2], [2, 3], [3, 0]] } := by
  have hl : (resize r.facets 4 [0, 0]).length = 4 := by
    rw [resize, List.length_append, List.length_take, List.length_replicate]; omega
  have hm : ∀ f ∈ resize r.facets 4 [0, 0], f.length = 2 := by
    intro f hf
    rcases List.mem_append.1 hf with hf | hf
    · exact h f (List.mem_of_mem_take hf)
    · rw [List.eq_of_mem_replicate hf]; rfl
  unfold makeBoxPLC2
  generalize resize r.facets 4 [0, 0] = l at hl hm
  match l, hl with
  | [a, b, c, d], _ =>
    have ha := hm a (by simp)
    have hb := hm b (by simp)
    have hc := hm c (by simp)
    have hd := hm d (by simp)
    match a, b, c, d, ha, hb, hc, hd with
    | [_, _], [_, _], [_, _], [_, _], _, _, _, _ => rfl

/-! ### Circles -/

theorem chainFacets_oneLoop (n : Nat) : OneLoop n ((List.range n).map fun i : Nat => [(i : Int), (((i + 1) % n : Nat) : Int)]) where
  segments := by
    intro f hf
    obtain ⟨i, -, rfl⟩ := List.mem_map.1 hf
    rfl
  once := by
    rw [List.map_map]
    refine List.Nodup.map ?_ List.nodup_range
    intro a b hab
    simpa using hab
  all := by
    intro i
    rw [List.map_map]
    constructor
    · intro h
      obtain ⟨k, hk, rfl⟩ := List.mem_map.1 h
      have := List.mem_range.1 hk
      simp only [Function.comp, List.getD_cons_zero]; omega
    · rintro ⟨h0, h1⟩
      exact List.mem_map.2 ⟨i.toNat, List.mem_range.2 (by omega), by simp only [Function.comp, List.getD_cons_zero]; omega⟩
  chain := by
    apply List.ext_getElem
    · simp
    · intro i h1 h2
      simp [List.getElem_rotate]

theorem circle_partial_sum (cx cy r t d : ℝ) (n : Nat) :
    ((List.range n).map fun i : Nat => (cx + r * Real.cos (t + i * d)) * (cy + r * Real.sin (t + (i + 1) * d))
        - (cx + r * Real.cos (t + (i + 1) * d)) * (cy + r * Real.sin (t + i * d))).sum
      = n * (r ^ 2 * Real.sin d) + cx * r * (Real.sin (t + n * d) - Real.sin t) - cy * r * (Real.cos (t + n * d) - Real.cos t) := by
  induction n with
  | zero => simp
  | succ n ih =>
    rw [List.range_succ, List.map_append, List.sum_append, ih]
    have h := Real.sin_sub (t + (n + 1) * d) (t + n * d)
    rw [show t + ((n : ℝ) + 1) * d - (t + n * d) = d by ring] at h
    simp only [List.map_cons, List.map_nil, List.sum_cons, List.sum_nil, Nat.cast_succ]
    rw [h]
    ring

theorem crd_flatMap2 {α K : Type} [Field K] {g h : α → K} {k : List α} (j : Nat) (hj : j < k.length) :
    crd 2 (k.flatMap fun a => [g a, h a]) (j : Int) 0 = g k[j] ∧ crd 2 (k.flatMap fun a => [g a, h a]) (j : Int) 1 = h k[j] := by
  have := pt_flatMap (D := 2) (g := fun a => [g a, h a]) (k := k) (fun _ _ => rfl) j hj
  unfold pt at this
  rw [Int.toNat_natCast] at this
  have h0 := congrArg (fun l => l[0]?) this
  have h1 := congrArg (fun l => l[1]?) this
  simp only [List.getElem?_take, List.getElem?_drop] at h0 h1
  constructor
  · rw [crd, Int.toNat_natCast, List.getD_eq_getElem?_getD]; simpa using congrArg (·.getD 0) h0
  · rw [crd, Int.toNat_natCast, List.getD_eq_getElem?_getD]; simpa using congrArg (·.getD 0) h1

theorem circle_wrap (n : Nat) (hn : 0 < n) (i : Nat) (hi : i < n) :
    Real.cos ((((i + 1) % n : Nat) + 1 / 2 : ℝ) * (2 * Real.pi / n)) = Real.cos (((i : ℝ) + 1 + 1 / 2) * (2 * Real.pi / n)) ∧
    Real.sin ((((i + 1) % n : Nat) + 1 / 2 : ℝ) * (2 * Real.pi / n)) = Real.sin (((i : ℝ) + 1 + 1 / 2) * (2 * Real.pi / n)) := by
  have hn' : (n : ℝ) ≠ 0 := by positivity
  rcases Nat.lt_or_ge (i + 1) n with h | h
  · rw [Nat.mod_eq_of_lt h]; push_cast; exact ⟨rfl, rfl⟩
  · have e : i + 1 = n := by omega
    rw [e, Nat.mod_self]
    have : ((i : ℝ) + 1 + 1 / 2) * (2 * Real.pi / n) = (((0 : Nat) : ℝ) + 1 / 2) * (2 * Real.pi / n) + 2 * Real.pi := by
      have : (i : ℝ) + 1 = n := by exact_mod_cast e
      rw [this]; field_simp; push_cast; ring
    rw [this, Real.cos_add_two_pi, Real.sin_add_two_pi]
    exact ⟨rfl, rfl⟩

theorem circle_area (dbg : Bool) (cx cy radius : ℝ) (n : Nat) (hn : 2 < n) (r : RPLC ℝ) (h : plcCircle dbg cx cy radius n = .ok r) :
    signedArea r.points r.facets = n / 2 * radius ^ 2 * Real.sin (2 * Real.pi / n) := by
  unfold plcCircle at h
  rw [Res.assert_true dbg (by exact hn)] at h
  cases h
  have hn' : (n : ℝ) ≠ 0 := by positivity
  simp only [signedArea, List.map_map]
  have key : ((List.range n).map ((fun f : List Int => crd 2 ((List.range n).flatMap fun i : Nat => [cx + radius * Real.cos (((i : ℝ) + 1 / 2) * (2 * Real.pi / n)), cy + radius * Real.sin (((i : ℝ) + 1 / 2) * (2 * Real.pi / n))]) (f.getD 0 0) 0 * crd 2 ((List.range n).flatMap fun i : Nat => [cx + radius * Real.cos (((i : ℝ) + 1 / 2) * (2 * Real.pi / n)), cy + radius * Real.sin (((i : ℝ) + 1 / 2) * (2 * Real.pi / n))]) (f.getD 1 0) 1 - crd 2 ((List.range n).flatMap fun i : Nat => [cx + radius * Real.cos (((i : ℝ) + 1 / 2) * (2 * Real.pi / n)), cy + radius * Real.sin (((i : ℝ) + 1 / 2) * (2 * Real.pi / n))]) (f.getD 1 0) 0 * crd 2 ((List.range n).flatMap fun i : Nat => [cx + radius * Real.cos (((i : ℝ) + 1 / 2) * (2 * Real.pi / n)), cy + radius * Real.sin (((i : ℝ) + 1 / 2) * (2 * Real.pi / n))]) (f.getD 0 0) 1) ∘ fun i : Nat => [(i : Int), (((i + 1) % n : Nat) : Int)]))
      = (List.range n).map fun i : Nat => (cx + radius * Real.cos (1 / 2 * (2 * Real.pi / n) + i * (2 * Real.pi / n))) * (cy + radius * Real.sin (1 / 2 * (2 * Real.pi / n) + (i + 1) * (2 * Real.pi / n)))
        - (cx + radius * Real.cos (1 / 2 * (2 * Real.pi / n) + (i + 1) * (2 * Real.pi / n))) * (cy + radius * Real.sin (1 / 2 * (2 * Real.pi / n) + i * (2 * Real.pi / n))) := by
    refine List.map_congr_left fun i hi => ?_
    have hi := List.mem_range.1 hi
    have hm : (i + 1) % n < n := Nat.mod_lt _ (by omega)
    simp only [Function.comp, List.getD_cons_zero, List.getD_cons_succ]
    have k1 := crd_flatMap2 (k := List.range n) (g := fun i : Nat => cx + radius * Real.cos (((i : ℝ) + 1 / 2) * (2 * Real.pi / n)))
      (h := fun i : Nat => cy + radius * Real.sin (((i : ℝ) + 1 / 2) * (2 * Real.pi / n))) i (by simpa using hi)
    have k2 := crd_flatMap2 (k := List.range n) (g := fun i : Nat => cx + radius * Real.cos (((i : ℝ) + 1 / 2) * (2 * Real.pi / n)))
      (h := fun i : Nat => cy + radius * Real.sin (((i : ℝ) + 1 / 2) * (2 * Real.pi / n))) ((i + 1) % n) (by simpa using hm)
    rw [k1.1, k1.2, k2.1, k2.2]
    simp only [List.getElem_range]
    rw [(circle_wrap n (by omega) i hi).1, (circle_wrap n (by omega) i hi).2]
    rw [show ((i : ℝ) + 1 + 1 / 2) * (2 * Real.pi / n) = 1 / 2 * (2 * Real.pi / n) + (i + 1) * (2 * Real.pi / n) by ring,
      show ((i : ℝ) + 1 / 2) * (2 * Real.pi / n) = 1 / 2 * (2 * Real.pi / n) + i * (2 * Real.pi / n) by ring]
  rw [key, circle_partial_sum]
  rw [show (n : ℝ) * (2 * Real.pi / n) = 2 * Real.pi by field_simp, Real.sin_add_two_pi, Real.cos_add_two_pi]
  ring

end Verif.Geom
