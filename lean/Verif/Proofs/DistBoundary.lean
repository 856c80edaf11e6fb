import Verif.Spec.DistBoundary
import Verif.Props.Internal
import Verif.Props.Distributed
/- Proofs about the boundary of a distributed tessellation. -/
namespace Verif.Nbr
open Verif Verif.Mesh Verif.Geom Verif.Internal

/-! ### The copy of the PLC -/

theorem place_length {K : Type} {d : Nat} {pts : List K} {i : Int} (h : IsPoint d pts i) : (place d pts i).length = d := by
  have := h.2
  unfold place
  rw [List.length_take, List.length_drop]; omega

theorem mapM_block {K : Type} {d : Nat} {pts : List K} {i : Int} (h : IsPoint d pts i) :
    ((List.range d).mapM fun j => if i < 0 then .ub else rd pts (d * i.toNat + j)) = .ok (place d pts i) := by
  have hn : ¬ i < 0 := by have := h.1; omega
  have h2 := h.2
  have gen : ∀ n, n ≤ d → ((List.range n).mapM fun j => if i < 0 then .ub else rd pts (d * i.toNat + j)) = .ok ((pts.drop (d * i.toNat)).take n) := by
    intro n
    induction n with
    | zero => intro _; rfl
    | succ n ih =>
      intro hd
      rw [List.range_succ, List.mapM_append, ih (by omega), Res.ok_bind, List.mapM_cons, if_neg hn, rd_lt (by omega : d * i.toNat + n < pts.length), Res.ok_bind, List.mapM_nil]
      have : (pts.drop (d * i.toNat)).take (n + 1) = (pts.drop (d * i.toNat)).take n ++ [pts[d * i.toNat + n]] := by
        rw [List.take_add_one, List.getElem?_drop, List.getElem?_eq_getElem (by omega)]; rfl
      rw [this]; rfl
  exact gen d le_rfl

/-- The points copied for a map. -/
def blocks {K : Type} (d : Nat) (pts : List K) (m : KMap Int) : List K := m.flatMap fun p => place d pts p.1

theorem visPLCVertex_eq {K : Type} {d : Nat} {pts : List K} {i : Int} (h : IsPoint d pts i) (m : KMap Int) :
    visPLCVertex d pts (m, blocks d pts m) i = .ok (((addKey i m).2, blocks d pts (addKey i m).2), ((addKey i m).1 : Int)) := by
  unfold visPLCVertex
  cases hl : m.lookup i with
  | some v =>
    have : addKey i m = (v, m) := by simp [addKey, hl]
    simp [this]
  | none =>
    have : addKey i m = (m.length, m ++ [(i, m.length)]) := by simp [addKey, hl]
    simp only [this]
    rw [if_pos (by simp), mapM_block h]
    simp [blocks]

theorem visPLCFacet_eq {K : Type} {d : Nat} {pts : List K} : ∀ (is : List Int), (∀ i ∈ is, IsPoint d pts i) → ∀ m : KMap Int,
    visPLCFacet d pts (m, blocks d pts m) is = .ok (((addKeys is m).2, blocks d pts (addKeys is m).2), (addKeys is m).1.map Int.ofNat)
  | [], _, m => rfl
  | i :: is, h, m => by
    rw [visPLCFacet, visPLCVertex_eq (h i (by simp)), Res.ok_bind, visPLCFacet_eq is (fun j hj => h j (by simp [hj])), Res.ok_bind]
    simp [addKeys]

theorem blocks_place {K : Type} {d : Nat} {pts : List K} : ∀ {m : KMap Int}, (∀ p ∈ m, IsPoint d pts p.1) → ∀ {v : Nat} {p : Int × Nat}, m[v]? = some p →
    place d (blocks d pts m) (v : Int) = place d pts p.1 ∧ d * v + d ≤ (blocks d pts m).length
  | [], _, v, p, hv => by simp at hv
  | q :: m, h, v, p, hv => by
    have hq := place_length (h q (by simp))
    have hb : blocks d pts (q :: m) = place d pts q.1 ++ blocks d pts m := by simp [blocks]
    cases v with
    | zero =>
      have : q = p := by simpa using hv
      subst this
      rw [hb]
      refine ⟨?_, by rw [List.length_append, hq]; omega⟩
      unfold place at hq ⊢
      simp only [Nat.cast_zero, Int.toNat_zero, Nat.mul_zero, List.drop_zero]
      rw [List.take_append_of_le_length (by omega), List.take_of_length_le (by omega)]
    | succ v =>
      have hv' : m[v]? = some p := by simpa using hv
      obtain ⟨h1, h2⟩ := blocks_place (fun r hr => h r (by simp [hr])) hv'
      rw [hb]
      refine ⟨?_, by rw [List.length_append, hq, Nat.mul_succ]; omega⟩
      rw [← h1]
      unfold place at hq ⊢
      have e1 : d * ((v + 1 : Nat) : Int).toNat = ((pts.drop (d * q.1.toNat)).take d).length + d * (v : Int).toNat := by rw [hq]; simp [Nat.mul_succ, Nat.add_comm]
      rw [e1, ← List.drop_drop, List.drop_left]

theorem visPLCFacets_eq {K : Type} {d : Nat} {pts : List K} : ∀ (fs : List (List Int)), (∀ f ∈ fs, ∀ i ∈ f, IsPoint d pts i) → ∀ (m : KMap Int) (ks : List Int), Numbers m ks → (∀ k ∈ ks, IsPoint d pts k) →
    ∃ (M : KMap Int) (gs : List (List Int)), visPLCFacets d pts (m, blocks d pts m) fs = .ok ((M, blocks d pts M), gs) ∧ Numbers M (ks ++ fs.flatten) ∧ (∀ p ∈ m, p ∈ M) ∧
      gs.map (·.map (place d (blocks d pts M))) = fs.map (·.map (place d pts)) ∧ (∀ n : Nat, (n : Int) ∈ gs.flatten ↔ ∃ k ∈ fs.flatten, (k, n) ∈ M) ∧ ∀ g ∈ gs, ∀ i ∈ g, 0 ≤ i
  | [], _, m, ks, hm, hk => ⟨m, [], rfl, by simpa using hm, fun p hp => hp, rfl, by simp, by simp⟩
  | f :: fs, h, m, ks, hm, hk => by
    have hf := h f (by simp)
    obtain ⟨a1, a2, a3, a4⟩ := addKeys_spec f ks m hm
    have hk' : ∀ k ∈ ks ++ f, IsPoint d pts k := by
      intro k hk2
      rcases List.mem_append.1 hk2 with h' | h'
      · exact hk k h'
      · exact hf k h'
    obtain ⟨M, gs, e, b1, b2, b3, b4, b5⟩ := visPLCFacets_eq fs (fun g hg => h g (by simp [hg])) (addKeys f m).2 (ks ++ f) a2 hk'
    have hkM : ∀ p ∈ M, IsPoint d pts p.1 := by
      intro p hp
      have := (b1.keys p.1).1 (List.mem_map.2 ⟨p, hp, rfl⟩)
      rcases List.mem_append.1 this with h' | h'
      · exact hk' _ h'
      · obtain ⟨g, hg, hig⟩ := List.mem_flatten.1 h'
        exact h g (by simp [hg]) _ hig
    have hpl : ∀ k v, (k, v) ∈ M → place d (blocks d pts M) (v : Int) = place d pts k := by
      intro k v hkv
      obtain ⟨j, hj, e⟩ := List.mem_iff_getElem.1 hkv
      have : (M.map Prod.snd)[j]? = some v := by simp [hj, e]
      rw [b1.ids] at this
      have hjv : j = v := by simpa [hj] using this
      subst hjv
      exact (blocks_place hkM (v := j) (p := (k, j)) (by rw [List.getElem?_eq_getElem hj, e])).1
    refine ⟨M, (addKeys f m).1.map Int.ofNat :: gs, ?_, by simpa using b1, fun p hp => b2 p (a3 p hp), ?_, ?_, ?_⟩
    · rw [visPLCFacets, visPLCFacet_eq f hf, Res.ok_bind, e, Res.ok_bind]; rfl
    · rw [List.map_cons, List.map_cons, b3]
      congr 1
      apply List.ext_getElem (by simp [a1])
      intro j h1 h2
      have hj : j < f.length := by simpa using h2
      simp only [List.getElem_map]
      exact hpl _ _ (b2 _ (a4 j hj (by rw [a1]; exact hj)))
    · intro n
      rw [List.flatten_cons, List.flatten_cons, List.mem_append, b4 n]
      constructor
      · rintro (h' | ⟨k, hk1, hk2⟩)
        · obtain ⟨n', hn', e'⟩ := List.mem_map.1 h'
          have : n' = n := by simpa using e'
          subst this
          obtain ⟨j, hj, rfl⟩ := List.mem_iff_getElem.1 hn'
          exact ⟨f[j], by simp, b2 _ (a4 j (by omega) hj)⟩
        · exact ⟨k, by simp [hk1], hk2⟩
      · rintro ⟨k, hk1, hk2⟩
        rcases List.mem_append.1 hk1 with h' | h'
        · left
          obtain ⟨j, hj, rfl⟩ := List.mem_iff_getElem.1 h'
          have hj' : j < (addKeys f m).1.length := by omega
          have := (b1.fst_inj hk2 (b2 _ (a4 j hj hj'))).1 rfl
          simp only at this
          rw [this]
          exact List.mem_map.2 ⟨_, List.getElem_mem hj', rfl⟩
        · exact Or.inr ⟨k, h', hk2⟩
    · intro g hg i hi
      rcases List.mem_cons.1 hg with rfl | hg
      · obtain ⟨n, _, rfl⟩ := List.mem_map.1 hi
        simp
      · exact b5 g hg i hi

theorem blocks_length {K : Type} {d : Nat} {pts : List K} : ∀ {m : KMap Int}, (∀ p ∈ m, IsPoint d pts p.1) → (blocks d pts m).length = d * m.length
  | [], _ => by simp [blocks]
  | q :: m, h => by
    have hq := place_length (h q (by simp))
    have hb : blocks d pts (q :: m) = place d pts q.1 ++ blocks d pts m := by simp [blocks]
    rw [hb, List.length_append, hq, blocks_length fun p hp => h p (by simp [hp]), List.length_cons, Nat.mul_succ]; omega

/-! ### A mesh of Voronoi cells has the nodes that tell neighbours -/

section
variable {K : Type} [Field K] [LinearOrder K] [IsStrictOrderedRing K]

omit [LinearOrder K] [IsStrictOrderedRing K] in
/-- The difference of the distances to two points, along a segment. -/
theorem sq2_lerp_sub (P Q a b : V2 K) (t : K) : sq2 (lerp2 a b t) P - sq2 (lerp2 a b t) Q = (1 - t) * (sq2 a P - sq2 a Q) + t * (sq2 b P - sq2 b Q) := by
  simp only [sq2, lerp2]; ring

/-- A convex polygon on one side of a bisector, with a point on it, has a corner on it. -/
theorem corner_on {A : List (V2 K)} {P Q : V2 K} (hle : ∀ v ∈ A, sq2 v P ≤ sq2 v Q) {x : V2 K} (hx : Hull2 A x) : sq2 x P ≤ sq2 x Q ∧ (sq2 x P = sq2 x Q → ∃ v ∈ A, sq2 v P = sq2 v Q) := by
  induction hx with
  | pt hv => exact ⟨hle _ hv, fun e => ⟨_, hv, e⟩⟩
  | @seg a b t ha hb h0 h1 iha ihb =>
    have e := sq2_lerp_sub P Q a b t
    have h2 : 0 ≤ 1 - t := by linarith
    have p1 : (1 - t) * (sq2 a P - sq2 a Q) ≤ 0 := mul_nonpos_of_nonneg_of_nonpos h2 (by linarith [iha.1])
    have p2 : t * (sq2 b P - sq2 b Q) ≤ 0 := mul_nonpos_of_nonneg_of_nonpos h0 (by linarith [ihb.1])
    refine ⟨by linarith, fun h => ?_⟩
    have q1 : (1 - t) * (sq2 a P - sq2 a Q) = 0 := by linarith
    have q2 : t * (sq2 b P - sq2 b Q) = 0 := by linarith
    rcases mul_eq_zero.1 q2 with h | h
    · rw [h] at q1
      exact iha.2 (by linarith)
    · exact ihb.2 (by linarith)

/-- In a mesh of Voronoi cells without two nodes at one place, cells that touch have a node in common. -/
theorem goodMesh_adjacent {m : Tess K} {S : List (V2 K)} {Dom : V2 K → Prop} (hm : GoodMesh m S Dom) : Adjacent m S Dom := by
  intro i j P Q x hi hj hx hP hQ
  obtain ⟨A, hA, hc, hin⟩ := hm.shows.shape i P hi
  have hxA := (inPoly_hull hA).1 ((hin x).2 ⟨hx, hP⟩)
  have hQm := hQ.1
  have hPm := hP.1
  have hv : ∀ v ∈ A, InCell S Dom P v := fun v hv => (hin v).1 ((inPoly_hull hA).2 (Hull2.pt hv))
  obtain ⟨v, hvA, e⟩ := (corner_on (P := P) (Q := Q) (fun v hvA => (hv v hvA).2.2 Q hQm) hxA).2 (le_antisymm (hP.2 Q hQm) (hQ.2 P hPm))
  have hex : Extreme (InCell S Dom P) v := (extreme_congr hin).1 ((extreme_corner hA).2 hvA)
  have hexQ : Extreme (InCell S Dom Q) v := by
    refine ⟨⟨hex.1.1, hQm, fun R hR => by rw [← e]; exact hex.1.2.2 R hR⟩, fun a b ha hb hab => hex.2 a b ?_ ?_ hab⟩
    all_goals
      have e' := sq2_lerp_sub P Q a b (1 / 2)
      rw [← hab] at e'
      have h1 := ha.2.2 P hPm
      have h2 := hb.2.2 P hPm
    · have : sq2 a P = sq2 a Q := by linarith
      exact ⟨ha.1, hPm, fun R hR => by rw [this]; exact ha.2.2 R hR⟩
    · have : sq2 b P = sq2 b Q := by linarith
      exact ⟨hb.1, hPm, fun R hR => by rw [this]; exact hb.2.2 R hR⟩
  obtain ⟨s, hs, n, hn, en⟩ := cell_corner hc hvA
  obtain ⟨s', hs', n', hn', en'⟩ := extreme_cell hm.shows hj hexQ
  have := hm.nodes n n' (node_lt_of_cell hm.shows.consistent hs hn) (node_lt_of_cell hm.shows.consistent hs' hn') (en.trans en'.symm)
  subst this
  exact ⟨n, ⟨s, hs, hn⟩, s', hs', hn'⟩
end
end Verif.Nbr
