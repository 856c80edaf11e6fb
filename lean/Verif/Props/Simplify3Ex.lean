import Verif.Props.Simplify3
import Verif.Props.Simplify3Fails
import Verif.Proofs.Simplify3Rat
/- C89: cases that meet the hypotheses of the theorems on the 3D version of `simplifyPLCfacets`, and cases of what it does wrong. -/
namespace Verif.Simplify3
open Verif Verif.Mesh Verif.Internal Verif.Geom Verif.Hash
open Verif.Simplify (Plc)

/-- A point on the grid of sixteenths. -/
def pt (n : Nat × Nat × Nat) : V3 ℚ := ⟨n.1 / 16, n.2.1 / 16, n.2.2 / 16⟩
noncomputable def pts16 (q : List (Nat × Nat × Nat)) : List (V3 ℝ) := (q.map pt).map real3
/-- The box from (0, 0, 0) to (4, 4, 4). -/
def box4 : HBox3 := ⟨⟨0, 0, 0⟩, ⟨4, 4, 4⟩⟩
/-- A platform that shifts by ten bits when asked for 42. -/
def ten : Points.Key → Nat → Points.Key := fun k _ => k <<< 10
/-- The points are different and in the box. -/
def Grid (q : List (Nat × Nat × Nat)) : Prop := q.Nodup ∧ ∀ n ∈ q, n.1 ≤ 64 ∧ n.2.1 ≤ 64 ∧ n.2.2 ≤ 64
instance (q : List (Nat × Nat × Nat)) : Decidable (Grid q) := inferInstanceAs (Decidable (_ ∧ _))

theorem cell16 (n : Nat) : cellIx max3 (1 / 100) (1 / 64) 0 4 (((n : ℚ) / 16 : ℚ) : ℝ) = 4 * n := by
  have hw : width max3 (1 / 100) (1 / 64) 0 4 = 1 / 64 := by
    unfold width max3
    rw [max_eq_left (a := (1 / 64 : ℝ)) (by norm_num), max_eq_right]
    norm_num
  unfold cellIx
  rw [hw]
  have : ((((n : ℚ) / 16 : ℚ) : ℝ) - 0) / (1 / 64) = ((4 * n : Int) : ℝ) := by
    push_cast
    ring
  rw [this, Int.floor_intCast]

theorem hash16 (n : Nat × Nat × Nat) : Hull3.hashOf ten (1 / 100) (1 / 64) box4 (real3 (pt n)) = BitVec.ofNat 32 (4 * n.1 + 4 * n.2.1 * 2 ^ 21 + 4 * n.2.2 * 2 ^ 10) := by
  simp only [Hull3.hashOf, box4, real3, pt, ten, cell16]
  apply BitVec.eq_of_toNat_eq
  simp only [BitVec.toNat_add, BitVec.toNat_shiftLeft, BitVec.toNat_ofNat, Nat.shiftLeft_eq]
  omega

theorem Grid.box {q : List (Nat × Nat × Nat)} (h : Grid q) : ∀ p ∈ pts16 q, inBox3 box4 p := by
  intro p hp
  simp only [pts16, List.map_map, List.mem_map, Function.comp] at hp
  obtain ⟨n, hn, rfl⟩ := hp
  obtain ⟨h1, h2, h3⟩ := h.2 n hn
  have h1' : (n.1 : ℝ) ≤ 64 := by exact_mod_cast h1
  have h2' : (n.2.1 : ℝ) ≤ 64 := by exact_mod_cast h2
  have h3' : (n.2.2 : ℝ) ≤ 64 := by exact_mod_cast h3
  simp only [inBox3, box4, real3, pt]
  push_cast
  refine ⟨⟨by positivity, by linarith⟩, ⟨by positivity, by linarith⟩, by positivity, by linarith⟩

theorem Grid.same {q : List (Nat × Nat × Nat)} (h : Grid q) : ∀ p ∈ pts16 q, ∀ p' ∈ pts16 q, Hull3.hashOf ten (1 / 100) (1 / 64) box4 p = Hull3.hashOf ten (1 / 100) (1 / 64) box4 p' → p = p' := by
  intro p hp p' hp' e
  simp only [pts16, List.map_map, List.mem_map, Function.comp] at hp hp'
  obtain ⟨n, hn, rfl⟩ := hp
  obtain ⟨m, hm, rfl⟩ := hp'
  obtain ⟨h1, h2, h3⟩ := h.2 n hn
  obtain ⟨k1, k2, k3⟩ := h.2 m hm
  rw [hash16, hash16] at e
  have e := congrArg BitVec.toNat e
  simp only [BitVec.toNat_ofNat] at e
  have : n = m := by
    refine Prod.ext ?_ (Prod.ext ?_ ?_) <;> omega
  rw [this]

theorem nested4 : nested3 box4 box4 := by
  simp only [nested3, box4]
  norm_num

theorem pt_inj {n m : Nat × Nat × Nat} (h : pt n = pt m) : n = m := by
  have h1 := congrArg V3.x h
  have h2 := congrArg V3.y h
  have h3 := congrArg V3.z h
  simp only [pt] at h1 h2 h3
  refine Prod.ext ?_ (Prod.ext ?_ ?_)
  · have : (n.1 : ℚ) = m.1 := by linarith
    exact_mod_cast this
  · have : (n.2.1 : ℚ) = m.2.1 := by linarith
    exact_mod_cast this
  · have : (n.2.2 : ℚ) = m.2.2 := by linarith
    exact_mod_cast this

theorem Grid.nodup {q : List (Nat × Nat × Nat)} (h : Grid q) : (pts16 q).Nodup :=
  (h.1.map fun _ _ => pt_inj).map fun _ _ => real3_inj

/-- The run in rational numbers. -/
def ratRun (dbg : Bool) (facets : List (List Int)) (q : List (Nat × Nat × Nat)) : Res (Plc (V3 ℚ)) :=
  simplifyWith (ratTests (1 / 64)) dbg facets (q.map pt) (q.map pt) (List.range q.length)

theorem Grid.run {q : List (Nat × Nat × Nat)} (h : Grid q) (dbg : Bool) (plc : PLC) :
    simplify3 (Points.wrapping ten) dbg (1 / 100) (1 / 64) box4 plc (pts16 q) =
      (fun r : Plc (V3 ℚ) => { facets := r.facets, holes := r.holes, points := r.points.map real3 }) <$> ratRun dbg plc.facets q := by
  obtain ⟨u, ix, h1, h2⟩ := unique_eq3 ten dbg (eps := 1 / 100) (tol := 1 / 64) (by norm_num) (fun _ => nested4) h.box h.same
  obtain ⟨e1, e2⟩ := FirstOf.unchanged h2 (fun _ _ e => e.symm) (fun _ => rfl) h.nodup
  rw [simplify3, Res.bind_eq, h1, Res.bind_ok, e1, e2]
  have : (1 / 64 : ℝ) = ((1 / 64 : ℚ) : ℝ) := by norm_num
  rw [this]
  unfold pts16 ratRun
  rw [simplifyWith_map (agree (by norm_num) (by norm_num))]
  simp

theorem cor16 (facets : List (List Int)) (q : List (Nat × Nat × Nat)) : facets.map (corners (pts16 q)) = (facets.map (corners (q.map pt))).map (List.map real3) := by
  rw [List.map_map]
  exact List.map_congr_left fun f _ => corners_real _ _

/-- All that the theorems ask for, for a calculation. -/
def RatGood (facets : List (List Int)) (q : List (Nat × Nat × Nat)) : Prop :=
  Grid q ∧ (∀ f ∈ facets, ∀ k ∈ f, 0 ≤ k ∧ k < q.length) ∧ (∀ l ∈ facets.map (corners (q.map pt)), RatProper l) ∧ RatLarge (1 / 64) (facets.map (corners (q.map pt))) ∧
    RatSharp (1 / 64) (facets.map (corners (q.map pt))) ∧ ((facets.map (corners (q.map pt))).flatMap dirSides).Nodup ∧ RatClosed (facets.map (corners (q.map pt)))
instance (facets : List (List Int)) (q : List (Nat × Nat × Nat)) : Decidable (RatGood facets q) := inferInstanceAs (Decidable (_ ∧ _))

theorem RatGood.good {facets : List (List Int)} {q : List (Nat × Nat × Nat)} (h : RatGood facets q) : Good3 (1 / 64) facets (pts16 q) := by
  obtain ⟨h1, h2, h3, h4, h5, h6, h7⟩ := h
  have e : (1 / 64 : ℝ) = ((1 / 64 : ℚ) : ℝ) := by norm_num
  refine ⟨?_, ?_, ?_, ?_, ?_⟩
  · simpa [pts16] using h2
  · intro f hf
    have := (h3 _ (List.mem_map_of_mem hf)).real
    rwa [← corners_real] at this
  · rw [e, cor16]; exact h5.real (by norm_num) h4
  · rw [cor16]; exact nodup_real h6
  · rw [cor16]; exact h7.real

deriving instance DecidableEq for Plc

theorem area_real (u : V3 ℚ) (l : List (V3 ℚ)) : areaAlong (real3 u) (l.map real3) = ((areaAlong u l : ℚ) : ℝ) := by
  rw [areaAlong, areaAlong, dirSides_map, List.map_map, Rat.cast_list_sum, List.map_map]
  congr 1
  refine List.map_congr_left fun s _ => ?_
  simp only [Function.comp, real3_cross, real3_dot]

theorem volume_real (L : List (List (V3 ℚ))) : volume6 (L.map (List.map real3)) = ((volume6 L : ℚ) : ℝ) := by
  rw [volume6, volume6, List.map_map, Rat.cast_list_sum, List.map_map]
  congr 1
  refine List.map_congr_left fun l _ => ?_
  simp only [Function.comp, headD_real, area_real]

theorem corners_real' (L : List (List Int)) (q : List (V3 ℚ)) : L.map (corners (q.map real3)) = (L.map (corners q)).map (List.map real3) := by
  rw [List.map_map]
  exact List.map_congr_left fun f _ => corners_real _ _

/-! ### A box whose top is in two parts -/

def splitPts : List (Nat × Nat × Nat) := [(0, 0, 0), (32, 0, 0), (32, 32, 0), (0, 32, 0), (0, 0, 32), (32, 0, 32), (32, 32, 32), (0, 32, 32), (16, 0, 32), (16, 32, 32)]
def splitFacets : List (List Int) := [[0, 3, 2, 1], [4, 8, 9, 7], [8, 5, 6, 9], [0, 1, 5, 8, 4], [1, 2, 6, 5], [2, 3, 7, 9, 6], [3, 0, 4, 7]]

theorem split_good : RatGood splitFacets splitPts := by decide +kernel

theorem split_run (dbg : Bool) : simplify3 (Points.wrapping ten) dbg (1 / 100) (1 / 64) box4 ⟨splitFacets, []⟩ (pts16 splitPts) =
    .ok { facets := [[0, 3, 2, 1], [4, 5, 6, 7], [1, 5, 4, 0], [2, 6, 5, 1], [3, 7, 6, 2], [0, 4, 7, 3]], points := pts16 (splitPts.take 8) } := by
  rw [split_good.1.run]
  have : ratRun dbg splitFacets splitPts = .ok { facets := [[0, 3, 2, 1], [4, 5, 6, 7], [1, 5, 4, 0], [2, 6, 5, 1], [3, 7, 6, 2], [0, 4, 7, 3]], points := (splitPts.take 8).map pt } := by
    revert dbg; decide +kernel
  rw [show (⟨splitFacets, []⟩ : PLC).facets = splitFacets from rfl, this]
  rfl

/-- The hypotheses of `C89_simplify3_partial` are met: the two parts of the top become one facet, and the two points in the middle of its sides go. -/
example : ∃ r : Plc (V3 ℝ), simplify3 (Points.wrapping ten) true (1 / 100) (1 / 64) box4 ⟨splitFacets, []⟩ (pts16 splitPts) = .ok r ∧ r.facets.length = 6 ∧ r.points.length = 8 ∧
    ∃ groups : List (List Nat × List (V3 ℝ)), (groups.map Prod.fst).flatten.Perm (List.range 7) ∧
      List.Forall₂ (fun G f => Replaces (G.1.map fun i => corners (pts16 splitPts) (splitFacets.getD i [])) G.2 (corners r.points f)) groups r.facets := by
  refine ⟨_, split_run true, rfl, by simp [pts16, splitPts], ?_⟩
  have g := split_good.good
  obtain ⟨-, -, -, -, -, -, groups, h1, h2, -⟩ := C89_simplify3_partial ten (by norm_num) (by norm_num) nested4 split_good.1.box split_good.1.same g.proper g.resolved g.sides (split_run true)
  exact ⟨groups, h1, h2⟩

/-! ### Small ones -/

def tetFacets : List (List Int) := [[0, 2, 1], [0, 1, 3], [1, 2, 3], [2, 0, 3]]
def tetPts (n : Nat) : List (Nat × Nat × Nat) := [(0, 0, 0), (n, 0, 0), (0, n, 0), (0, 0, n)]

/-- The hypotheses of `C89_tiny_fails` are met: a tetrahedron of size 1/16 with tolerance 1/64. -/
example (dbg : Bool) : simplify3 (Points.wrapping ten) dbg (1 / 100) (1 / 64) box4 ⟨tetFacets, []⟩ (pts16 (tetPts 1)) = if dbg then .abort else .ok { } := by
  have h : Grid (tetPts 1) := by decide +kernel
  refine C89_tiny_fails ten dbg (by norm_num) nested4 h.box h.same ?_ ?_
  · have : ∀ f ∈ tetFacets, 3 ≤ f.length ∧ ∀ k ∈ f, 0 ≤ k ∧ k < (tetPts 1).length := by decide +kernel
    simpa [pts16] using this
  · have : ∀ p ∈ (tetPts 1).map pt, ∀ q ∈ (tetPts 1).map pt, sq3 p q < 1 / 64 := by decide +kernel
    intro p hp q hq
    obtain ⟨p, mp, rfl⟩ := List.mem_map.1 hp
    obtain ⟨q, mq, rfl⟩ := List.mem_map.1 hq
    rw [sq_real]
    have := this p mp q mq
    have e : (1 / 64 : ℝ) = ((1 / 64 : ℚ) : ℝ) := by norm_num
    rw [e]
    exact_mod_cast this

/-- The hypotheses of `C89_small_fails` are met: a tetrahedron of size 1/8 with tolerance 1/64. -/
example (dbg : Bool) : simplify3 (Points.wrapping ten) dbg (1 / 100) (1 / 64) box4 ⟨tetFacets, []⟩ (pts16 (tetPts 2)) = if dbg then .abort else .ub := by
  have h : Grid (tetPts 2) := by decide +kernel
  have e : (1 / 64 : ℝ) = ((1 / 64 : ℚ) : ℝ) := by norm_num
  refine C89_small_fails ten dbg (by norm_num) (by norm_num) nested4 h.box h.same ?_ (by decide) ?_ ?_ ?_ ?_ ?_
  · have : ∀ f ∈ tetFacets, ∀ k ∈ f, 0 ≤ k ∧ k < (tetPts 2).length := by decide +kernel
    simpa [pts16] using this
  · intro f hf
    have : ∀ l ∈ tetFacets.map (corners ((tetPts 2).map pt)), RatProper l := by decide +kernel
    have := (this _ (List.mem_map_of_mem hf)).real
    rwa [← corners_real] at this
  · rw [e, cor16]
    have : RatLarge (1 / 64) (tetFacets.map (corners ((tetPts 2).map pt))) := by decide +kernel
    exact this.real
  · rw [cor16]
    have : RatClosed (tetFacets.map (corners ((tetPts 2).map pt))) := by decide +kernel
    exact this.real
  · have : ∀ f ∈ tetFacets, ∃ p ∈ corners ((tetPts 2).map pt) (tetFacets.headD []), p ∈ corners ((tetPts 2).map pt) f := by decide +kernel
    intro f hf
    obtain ⟨p, h1, h2⟩ := this f hf
    simp only [pts16, corners_real]
    exact ⟨_, List.mem_map_of_mem h1, List.mem_map_of_mem h2⟩
  · have : ∀ f ∈ tetFacets, dot3 (firstNormal (corners ((tetPts 2).map pt) f)) (firstNormal (corners ((tetPts 2).map pt) f)) ≤ 1 / 1024 := by decide +kernel
    have hs : ∀ f ∈ tetFacets, Real.sqrt (dot3 (firstNormal (corners (pts16 (tetPts 2)) f)) (firstNormal (corners (pts16 (tetPts 2)) f))) ≤ 1 / 32 := by
      intro f hf
      rw [Real.sqrt_le_left (by norm_num)]
      simp only [pts16, corners_real, firstNormal_real, real3_dot]
      have := this f hf
      have e : (1 / 32 : ℝ) ^ 2 = ((1 / 1024 : ℚ) : ℝ) := by norm_num
      rw [e]
      exact_mod_cast this
    intro f hf g hg
    have := mul_le_mul (hs f hf) (hs g hg) (Real.sqrt_nonneg _) (by norm_num)
    linarith

/-! ### What else goes wrong -/

/-- The run returns, and what it returns passes a test. -/
def returns (r : Res (Plc (V3 ℚ))) (p : Plc (V3 ℚ) → Bool) : Bool := match r with
  | .ok r => p r
  | _ => false

theorem returns_ok {r : Res (Plc (V3 ℚ))} {p : Plc (V3 ℚ) → Bool} (h : returns r p = true) : ∃ x, r = .ok x ∧ p x = true := by
  cases r with
  | ok x => exact ⟨x, rfl, h⟩
  | abort => cases h
  | ub => cases h

def reflexPts : List (Nat × Nat × Nat) := [(0, 32, 16), (16, 32, 16), (16, 16, 16), (32, 16, 16), (32, 0, 16), (16, 0, 16), (0, 0, 16), (0, 0, 0), (16, 0, 0), (32, 0, 0), (32, 16, 0), (16, 16, 0), (16, 32, 0), (0, 32, 0)]
def reflexFacets : List (List Int) := [[6, 5, 2, 1, 0], [5, 4, 3, 2], [7, 13, 12, 11, 8], [8, 11, 10, 9], [6, 7, 8, 9, 4, 5], [9, 10, 3, 4], [10, 11, 2, 3], [11, 12, 1, 2], [12, 13, 0, 1], [13, 7, 6, 0]]

/-- C89 does not hold for the direction of the facets: a prism over an L. The second corner of the new top is the reflex one, so that the new facet is turned over, and the volume changes. -/
theorem C89_orientation_fails : ∃ (facets : List (List Int)) (points : List (V3 ℝ)) (b : HBox3) (plat : Points.Key → Nat → Points.Key), Good3 (1 / 64) facets points ∧
    ∀ dbg, ∃ r : Plc (V3 ℝ), simplify3 (Points.wrapping plat) dbg (1 / 100) (1 / 64) b ⟨facets, []⟩ points = .ok r ∧
      volume6 (r.facets.map (corners r.points)) ≠ volume6 (facets.map (corners points)) := by
  have g : RatGood reflexFacets reflexPts := by decide +kernel
  refine ⟨reflexFacets, pts16 reflexPts, box4, ten, g.good, fun dbg => ?_⟩
  rw [g.1.run]
  have key : ∀ dbg, returns (ratRun dbg reflexFacets reflexPts) (fun r => decide (volume6 (r.facets.map (corners r.points)) ≠ volume6 (reflexFacets.map (corners (reflexPts.map pt))))) = true := by decide +kernel
  obtain ⟨r, h, k⟩ := returns_ok (key dbg)
  rw [show (⟨reflexFacets, []⟩ : PLC).facets = reflexFacets from rfl, h]
  refine ⟨_, rfl, ?_⟩
  simp only
  rw [cor16, corners_real', volume_real, volume_real]
  have := of_decide_eq_true k
  exact_mod_cast this

def rowPts : List (Nat × Nat × Nat) := [(0, 0, 0), (48, 0, 0), (48, 16, 0), (0, 16, 0), (0, 0, 32), (16, 0, 32), (32, 0, 32), (48, 0, 32), (48, 16, 32), (32, 16, 32), (16, 16, 32), (0, 16, 32)]
def rowFacets : List (List Int) := [[4, 5, 10, 11], [5, 6, 9, 10], [6, 7, 8, 9], [0, 3, 2, 1], [0, 1, 7, 6, 5, 4], [1, 2, 8, 7], [2, 3, 11, 10, 9, 8], [3, 0, 4, 11]]
def rowPerm : List Nat := [6, 9, 0, 1, 2, 3, 4, 5, 7, 8, 10, 11]

/-- C89 does not hold for the number of facets: a box whose top is three rectangles in a row, and the same with the points in another order. The top becomes one facet and two. -/
theorem C89_order_fails : ∃ (facets facets' : List (List Int)) (points points' : List (V3 ℝ)) (b : HBox3) (plat : Points.Key → Nat → Points.Key), Good3 (1 / 64) facets points ∧ Good3 (1 / 64) facets' points' ∧
    facets.map (corners points) = facets'.map (corners points') ∧ points.Perm points' ∧
    ∀ dbg, ∃ r r' : Plc (V3 ℝ), simplify3 (Points.wrapping plat) dbg (1 / 100) (1 / 64) b ⟨facets, []⟩ points = .ok r ∧ simplify3 (Points.wrapping plat) dbg (1 / 100) (1 / 64) b ⟨facets', []⟩ points' = .ok r' ∧
      r.facets.length = 6 ∧ r'.facets.length = 7 := by
  have g : RatGood rowFacets rowPts := by decide +kernel
  have g' : RatGood (rowFacets.map (List.map fun k => ((rowPerm.idxOf k.toNat : Nat) : Int))) (rowPerm.map fun i => rowPts.getD i (0, 0, 0)) := by decide +kernel
  refine ⟨_, _, _, _, box4, ten, g.good, g'.good, ?_, ?_, fun dbg => ?_⟩
  · rw [cor16, cor16]
    congr 1
  · refine List.Perm.map _ (List.Perm.map _ ?_)
    decide +kernel
  · rw [g.1.run, g'.1.run]
    have key : ∀ dbg, returns (ratRun dbg rowFacets rowPts) (fun r => decide (r.facets.length = 6)) = true := by decide +kernel
    have key' : ∀ dbg, returns (ratRun dbg (rowFacets.map (List.map fun k => ((rowPerm.idxOf k.toNat : Nat) : Int))) (rowPerm.map fun i => rowPts.getD i (0, 0, 0))) (fun r => decide (r.facets.length = 7)) = true := by
      decide +kernel
    obtain ⟨r, h, k⟩ := returns_ok (key dbg)
    obtain ⟨r', h', k'⟩ := returns_ok (key' dbg)
    dsimp only
    rw [h, h']
    exact ⟨_, _, rfl, rfl, of_decide_eq_true k, of_decide_eq_true k'⟩

def ringPts : List (Nat × Nat × Nat) :=
  [(0, 0, 0), (48, 0, 0), (48, 48, 0), (0, 48, 0), (16, 16, 0), (32, 16, 0), (32, 32, 0), (16, 32, 0), (0, 0, 16), (48, 0, 16), (48, 48, 16), (0, 48, 16), (16, 16, 16), (32, 16, 16), (32, 32, 16), (16, 32, 16)]
def ringFacets : List (List Int) := [[8, 9, 13, 12], [9, 10, 14, 13], [10, 11, 15, 14], [11, 8, 12, 15], [1, 0, 4, 5], [2, 1, 5, 6], [3, 2, 6, 7], [0, 3, 7, 4], [0, 1, 9, 8], [1, 2, 10, 9], [2, 3, 11, 10], [3, 0, 8, 11],
  [5, 4, 12, 13], [6, 5, 13, 14], [7, 6, 14, 15], [4, 7, 15, 12]]

/-- C89 does not hold for all surfaces: for a box with a square hole through it the call aborts, and without assertions it is undefined. The four facets around the end of the hole make a ring, and
the outline of a ring is not one loop. -/
theorem C89_annulus_fails : ∃ (facets : List (List Int)) (points : List (V3 ℝ)) (b : HBox3) (plat : Points.Key → Nat → Points.Key), Good3 (1 / 64) facets points ∧
    ∀ dbg, simplify3 (Points.wrapping plat) dbg (1 / 100) (1 / 64) b ⟨facets, []⟩ points = if dbg then .abort else .ub := by
  have g : RatGood ringFacets ringPts := by decide +kernel
  refine ⟨ringFacets, pts16 ringPts, box4, ten, g.good, fun dbg => ?_⟩
  rw [g.1.run]
  have : ∀ dbg, ratRun dbg ringFacets ringPts = if dbg then .abort else .ub := by decide +kernel
  rw [show (⟨ringFacets, []⟩ : PLC).facets = ringFacets from rfl, this dbg]
  cases dbg <;> rfl

def pinchPts : List (Nat × Nat × Nat) := [(16, 16, 0), (32, 32, 0), (0, 32, 0), (16, 32, 16), (0, 0, 0), (32, 0, 0), (16, 0, 16)]
def pinchFacets : List (List Int) := [[0, 2, 1], [0, 1, 3], [1, 2, 3], [2, 0, 3], [0, 5, 4], [0, 4, 6], [4, 5, 6], [5, 0, 6]]

/-- C89 does not hold for the shape of the facets: two tetrahedra on one plane share a corner. Their bases become one facet, which comes by the corner twice. -/
theorem C89_pinch_fails : ∃ (facets : List (List Int)) (points : List (V3 ℝ)) (b : HBox3) (plat : Points.Key → Nat → Points.Key), Good3 (1 / 64) facets points ∧
    ∀ dbg, ∃ r : Plc (V3 ℝ), simplify3 (Points.wrapping plat) dbg (1 / 100) (1 / 64) b ⟨facets, []⟩ points = .ok r ∧ ∃ f ∈ r.facets, ¬ f.Nodup := by
  have g : RatGood pinchFacets pinchPts := by decide +kernel
  refine ⟨pinchFacets, pts16 pinchPts, box4, ten, g.good, fun dbg => ?_⟩
  rw [g.1.run]
  have key : ∀ dbg, returns (ratRun dbg pinchFacets pinchPts) (fun r => decide (∃ f ∈ r.facets, ¬ f.Nodup)) = true := by decide +kernel
  obtain ⟨r, h, k⟩ := returns_ok (key dbg)
  rw [show (⟨pinchFacets, []⟩ : PLC).facets = pinchFacets from rfl, h]
  exact ⟨_, rfl, of_decide_eq_true k⟩

/-- C89 does not hold for the holes: whatever the PLC, none is left. -/
theorem C89_holes_fails (A : Points.Arith) (dbg : Bool) {eps tol : ℝ} {b : HBox3} {plc : PLC} {points : List (V3 ℝ)} {r : Plc (V3 ℝ)} (h : simplify3 A dbg eps tol b plc points = .ok r) : r.holes = [] := by
  unfold simplify3 simplifyWith at h
  simp only [Res.bind_eq] at h
  obtain ⟨_, -, h⟩ := Res.bind_eq_ok.1 h
  obtain ⟨_, -, h⟩ := Res.bind_eq_ok.1 h
  obtain ⟨_, -, h⟩ := Res.bind_eq_ok.1 h
  obtain ⟨_, -, h⟩ := Res.bind_eq_ok.1 h
  obtain ⟨_, -, h⟩ := Res.bind_eq_ok.1 h
  obtain ⟨_, -, h⟩ := Res.bind_eq_ok.1 h
  obtain ⟨_, -, h⟩ := Res.bind_eq_ok.1 h
  obtain ⟨_, -, h⟩ := Res.bind_eq_ok.1 h
  cases h
  rfl

example (dbg : Bool) : ∃ r : Plc (V3 ℝ), simplify3 (Points.wrapping ten) dbg (1 / 100) (1 / 64) box4 ⟨splitFacets, [[[0, 1, 2]]]⟩ (pts16 splitPts) = .ok r ∧ r.holes = [] :=
  ⟨_, split_run dbg, C89_holes_fails _ dbg (split_run dbg)⟩
end Verif.Simplify3
