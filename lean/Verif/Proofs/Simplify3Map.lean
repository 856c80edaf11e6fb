import Verif.Proofs.Simplify3Tests
/- A run of the 3D version of `simplifyPLCfacets` on points with rational coordinates can be calculated. -/
namespace Verif.Simplify3
open Verif Verif.Mesh Verif.Internal Verif.Geom
open Verif.Simplify (Plc rdi number compact renumber)

/-- Tests that come out the same. -/
structure Agree {V V' : Type} (T : Tests V) (T' : Tests V') (F : V → V') : Prop where
  near : ∀ p q, T'.near (F p) (F q) = T.near p q
  coll : ∀ p q r, T'.coll (F p) (F q) (F r) = T.coll p q r
  par : ∀ m n : V × V × V, T'.par (F m.1, F m.2.1, F m.2.2) (F n.1, F n.2.1, F n.2.2) = T.par m n
  turn : ∀ a b c d, T'.turn (F a) (F b) (F c) (F d) = T.turn a b c d
  neg : ∀ a b c d e f, T'.neg (F a) (F b) (F c) (F d) (F e) (F f) = T.neg a b c d e f

section
variable {V V' : Type} {T : Tests V} {T' : Tests V'} {F : V → V'}

theorem rd_map (l : List V) (i : Nat) : rd (l.map F) i = F <$> rd l i := by
  unfold rd
  rw [List.getElem?_map]
  cases l[i]? <;> rfl

theorem rdi_map (l : List V) (i : Int) : rdi (l.map F) i = F <$> rdi l i := by
  unfold rdi
  split
  · exact rd_map l _
  · rfl

theorem wr_map (l : List V) (i : Nat) (a : V) : wr (l.map F) i (F a) = (List.map F) <$> wr l i a := by
  unfold wr
  rw [List.length_map]
  split
  · rw [List.map_set.symm]; rfl
  · rfl

theorem mapM_natural {α β γ : Type} {f : α → Res β} {g : α → Res γ} {k : β → γ} (h : ∀ a, g a = k <$> f a) : ∀ l : List α, l.mapM g = (List.map k) <$> l.mapM f
  | [] => rfl
  | a :: l => by
    rw [List.mapM_cons, List.mapM_cons, mapM_natural h l, h]
    simp only [bind_map_left, map_bind, map_pure, List.map_cons]

theorem dropWhile_map (p : V' → Bool) : ∀ l : List V, (l.map F).dropWhile p = (l.dropWhile fun a => p (F a)).map F
  | [] => rfl
  | a :: l => by
    rw [List.map_cons, List.dropWhile_cons, List.dropWhile_cons]
    split
    · exact dropWhile_map p l
    · rfl

def triple (F : V → V') (x : V × V × V) : V' × V' × V' := (F x.1, F x.2.1, F x.2.2)

theorem facetNormal_map (hA : Agree T T' F) (dbg : Bool) (points : List V) (f : List Int) : facetNormal T' dbg (points.map F) f = (Option.map (triple F)) <$> facetNormal T dbg points f := by
  unfold facetNormal
  rw [mapM_natural (f := rdi points) (k := F) (fun a => rdi_map points a)]
  simp only [bind_map_left, map_bind]
  congr 1
  funext _
  congr 1
  funext ps
  rcases ps with _ | ⟨p1, rest⟩
  · rfl
  · simp only [List.map_cons]
    rw [dropWhile_map]
    have e : (fun a => T'.near (F p1) (F a)) = T.near p1 := funext fun a => hA.near p1 a
    rw [e]
    rcases rest.dropWhile (T.near p1) with _ | ⟨p2, rest⟩
    · rfl
    · simp only [List.map_cons]
      rw [dropWhile_map]
      have e : (fun a => T'.coll (F p1) (F p2) (F a)) = T.coll p1 p2 := funext fun a => hA.coll p1 p2 a
      rw [e]
      rcases rest.dropWhile (T.coll p1 p2) with _ | ⟨p3, rest⟩
      · rfl
      · rfl

theorem gatherFacet_map (hA : Agree T T' F) (mf : List (List Nat)) (nrm : List (Option (V × V × V))) (i : Nat) (ni : V × V × V) (s : Gather) (o : Nat) :
    gatherFacet T' mf (nrm.map (Option.map (triple F))) i (triple F ni) s o = gatherFacet T mf nrm i ni s o := by
  unfold gatherFacet
  have e : (nrm.map (Option.map (triple F))).getD o none = (nrm.getD o none).map (triple F) := by
    rw [List.getD_eq_getElem?_getD, List.getElem?_map, List.getD_eq_getElem?_getD]
    cases nrm[o]? <;> rfl
  rw [e]
  rcases nrm.getD o none with _ | no
  · rfl
  · simp only [Option.map_some]
    simp only [show T'.par (triple F ni) (triple F no) = T.par ni no from hA.par ni no]

theorem gather_map (hA : Agree T T' F) (mf : List (List Nat)) (nrm : List (Option (V × V × V))) (n i : Nat) (ni : V × V × V) (used : List Bool) :
    gather T' mf (nrm.map (Option.map (triple F))) n i (triple F ni) used = gather T mf nrm n i ni used := by
  have e : gatherFacet T' mf (nrm.map (Option.map (triple F))) i (triple F ni) = gatherFacet T mf nrm i ni := funext fun s => funext fun o => gatherFacet_map hA mf nrm i ni s o
  unfold gather
  congr 1
  funext s v
  unfold gatherNode
  rw [e]

theorem corner_map (hA : Agree T T' F) (dbg : Bool) (pts : List V) (edges : List Edge) (order : List Int) (j : Nat) : corner T' dbg (pts.map F) edges order j = corner T dbg pts edges order j := by
  unfold corner
  simp only [rdi_map, bind_map_left, hA.turn]

theorem orient_map (hA : Agree T T' F) (dbg : Bool) (points pts : List V) (f new : List Int) : orient T' dbg (points.map F) (pts.map F) f new = orient T dbg points pts f new := by
  unfold orient
  have e : ∀ (l : List V) (g : List Int) (i : Nat), (rd g i >>= rdi (l.map F)) = F <$> (rd g i >>= rdi l) := by
    intro l g i
    rw [map_bind]
    congr 1
    funext k
    exact rdi_map l k
  simp only [e, bind_map_left, hA.neg]

theorem glue_map (hA : Agree T T' F) (dbg : Bool) (points pts : List V) (mf : List (List Nat)) (f : List Int) (old : List Nat) :
    glue T' dbg (points.map F) (pts.map F) mf f old = glue T dbg points pts mf f old := by
  unfold glue
  simp only [orient_map hA]
  have e : ∀ edges order, corner T' dbg (pts.map F) edges order = corner T dbg pts edges order := fun edges order => funext fun j => corner_map hA dbg pts edges order j
  simp only [e]

theorem glueLoop_map (hA : Agree T T' F) (dbg : Bool) (points pts : List V) (mf : List (List Nat)) (nrm : List (Option (V × V × V))) : ∀ (fs : List (List Int)) (i : Nat) (used : List Bool),
    glueLoop T' dbg (points.map F) (pts.map F) mf (nrm.map (Option.map (triple F))) fs i used = glueLoop T dbg points pts mf nrm fs i used
  | [], _, _ => rfl
  | f :: fs, i, used => by
    have e : (nrm.map (Option.map (triple F))).getD i none = (nrm.getD i none).map (triple F) := by
      rw [List.getD_eq_getElem?_getD, List.getElem?_map, List.getD_eq_getElem?_getD]
      cases nrm[i]? <;> rfl
    rw [glueLoop, glueLoop, e]
    rcases used.getD i true with _ | _
    · rcases nrm.getD i none with _ | ni
      · exact glueLoop_map hA dbg points pts mf nrm fs (i + 1) used
      · simp only [Option.map_some]
        rw [List.length_map, gather_map hA]
        simp only [glue_map hA, glueLoop_map hA]
    · exact glueLoop_map hA dbg points pts mf nrm fs (i + 1) used

theorem compact_map (dbg : Bool) : ∀ (ms : List Int) (i : Nat) (pts : List V), compact dbg ms i (pts.map F) = (List.map F) <$> compact dbg ms i pts
  | [], _, _ => rfl
  | m :: ms, i, pts => by
    rw [compact, compact]
    split
    · simp only [rd_map, bind_map_left, map_bind, wr_map]
      simp only [compact_map dbg ms]
    · exact compact_map dbg ms (i + 1) pts

/-- A run on other points that look the same. -/
theorem simplifyWith_map (hA : Agree T T' F) (dbg : Bool) (facets : List (List Int)) (points pts : List V) (ix : List Nat) :
    simplifyWith T' dbg facets (points.map F) (pts.map F) ix = (fun r : Plc V => { facets := r.facets, holes := r.holes, points := r.points.map F }) <$> simplifyWith T dbg facets points pts ix := by
  unfold simplifyWith
  rw [List.length_map]
  simp only [map_bind]
  congr 1
  funext mf
  rw [mapM_natural (f := facetNormal T dbg points) (k := Option.map (triple F)) fun f => facetNormal_map hA dbg points f]
  rw [bind_map_left]
  congr 1
  funext nrm
  have e : (nrm.map (Option.map (triple F))).map Option.isNone = nrm.map Option.isNone := by
    rw [List.map_map]
    refine List.map_congr_left fun x _ => ?_
    cases x <;> rfl
  rw [glueLoop_map hA, e]
  congr 1
  funext new
  congr 1
  funext _
  congr 1
  funext mask
  rw [compact_map, bind_map_left]
  congr 1
  funext pts'
  congr 1
  funext fs
  simp only [map_pure, List.map_take]
end

/-- The tests of the library for rational coordinates, without roots. -/
def ratTests (tol : ℚ) : Tests (V3 ℚ) where
  near p q := decide (sq3 p q < tol ^ 2)
  coll p q r := decide (dot3 (q - p) (q - p) < tol ∨ dot3 (r - p) (r - p) < tol ∨ (1 - tol) ^ 2 * (dot3 (q - p) (q - p) * dot3 (r - p) (r - p)) < dot3 (q - p) (r - p) ^ 2)
  par m n := decide (0 < dot3 (normal m) (normal n) + tol ∧ dot3 (normal m) (normal m) * dot3 (normal n) (normal n) < (dot3 (normal m) (normal n) + tol) ^ 2)
  turn a b c d := decide ((tol + |dot3 (b - a) (d - c)|) ^ 2 < dot3 (b - a) (b - a) * dot3 (d - c) (d - c))
  neg a0 b0 c0 a1 b1 c1 := decide (dot3 (cross3 (b0 - a0) (c0 - a0)) (cross3 (b1 - a1) (c1 - a1)) < 0)

/-- A point with rational coordinates. -/
noncomputable def real3 (p : V3 ℚ) : V3 ℝ := ⟨p.x, p.y, p.z⟩

theorem real3_sub (p q : V3 ℚ) : real3 p - real3 q = real3 (p - q) := by
  refine V3.ext ?_ ?_ ?_ <;> simp [real3]

theorem real3_cross (p q : V3 ℚ) : cross3 (real3 p) (real3 q) = real3 (cross3 p q) := by
  refine V3.ext ?_ ?_ ?_ <;> simp [real3, cross3]

theorem real3_dot (p q : V3 ℚ) : dot3 (real3 p) (real3 q) = ((dot3 p q : ℚ) : ℝ) := by
  simp [real3, dot3]

theorem sqrt_mul_lt {A B c : ℝ} (hA : 0 ≤ A) (hB : 0 ≤ B) : Real.sqrt A * Real.sqrt B < c ↔ 0 < c ∧ A * B < c ^ 2 := by
  rw [← Real.sqrt_mul hA]
  have := mul_nonneg hA hB
  constructor
  · intro h
    have hc := (Real.sqrt_nonneg _).trans_lt h
    exact ⟨hc, (Real.sqrt_lt' hc).1 h⟩
  · rintro ⟨hc, h⟩
    exact (Real.sqrt_lt' hc).2 h

theorem lt_sqrt_mul {A B c : ℝ} (hA : 0 ≤ A) (hc : 0 ≤ c) : c < Real.sqrt A * Real.sqrt B ↔ c ^ 2 < A * B := by
  rw [← Real.sqrt_mul hA]
  exact Real.lt_sqrt hc

theorem agree {tol : ℚ} (h0 : 0 < tol) (h1 : tol < 1) : Agree (ratTests tol) (realTests (tol : ℝ)) real3 := by
  have h0' : (0 : ℝ) < tol := by exact_mod_cast h0
  have h1' : (tol : ℝ) < 1 := by exact_mod_cast h1
  have nn := fun v : V3 ℝ => Hull3.dot_self_nonneg v
  have hnormal : ∀ m : V3 ℚ × V3 ℚ × V3 ℚ, normal (real3 m.1, real3 m.2.1, real3 m.2.2) = real3 (normal m) := by
    intro m
    simp only [normal, real3_sub, real3_cross]
  constructor
  · intro p q
    simp only [realTests, ratTests]
    refine decide_eq_decide.2 ?_
    rw [distance3, Real.sqrt_lt' h0']
    have e : ((real3 p).x - (real3 q).x) * ((real3 p).x - (real3 q).x) + ((real3 p).y - (real3 q).y) * ((real3 p).y - (real3 q).y) + ((real3 p).z - (real3 q).z) * ((real3 p).z - (real3 q).z) =
        ((sq3 p q : ℚ) : ℝ) := by
      simp only [real3, sq3]
      push_cast
      ring
    rw [e]
    exact_mod_cast Iff.rfl
  · intro p q r
    simp only [realTests, ratTests]
    refine decide_eq_decide.2 ?_
    unfold collinear3
    rw [norm_dot3]
    have nA := nn (real3 q - real3 p)
    have nB := nn (real3 r - real3 p)
    have hcs := lagrange (real3 q - real3 p) (real3 r - real3 p)
    have ncr := nn (cross3 (real3 q - real3 p) (real3 r - real3 p))
    simp only [real3_sub, real3_dot, real3_cross] at nA nB hcs ncr ⊢
    generalize dot3 (q - p) (q - p) = A at *
    generalize dot3 (r - p) (r - p) = B at *
    generalize dot3 (q - p) (r - p) = D at *
    generalize dot3 (cross3 (q - p) (r - p)) (cross3 (q - p) (r - p)) = E at *
    by_cases hA : A < tol
    · exact ⟨fun _ => .inl hA, fun _ => .inl (by exact_mod_cast hA)⟩
    · by_cases hB : B < tol
      · exact ⟨fun _ => .inr (.inl hB), fun _ => .inr (.inl (by exact_mod_cast hB))⟩
      · have hA' : ¬ (A : ℝ) < tol := by exact_mod_cast hA
        have hB' : ¬ (B : ℝ) < tol := by exact_mod_cast hB
        simp only [hA, hB, hA', hB', false_or]
        have hm : (0 : ℝ) < A * B := mul_pos (by linarith [not_lt.1 hA']) (by linarith [not_lt.1 hB'])
        have hs := Real.sqrt_pos.2 hm
        have hs2 := Real.sq_sqrt hm.le
        set s := Real.sqrt ((A : ℝ) * B)
        have hle : |(D : ℝ)| / s ≤ 1 := by
          rw [div_le_one hs]
          refine abs_le_of_sq_le_sq ?_ hs.le
          rw [hs2]; linarith
        rw [abs_sub_comm, abs_of_nonneg (by linarith), sub_lt_comm, lt_div_iff₀ hs]
        have h2 : (1 - (tol : ℝ)) * s < |(D : ℝ)| ↔ ((1 - (tol : ℝ)) * s) ^ 2 < |(D : ℝ)| ^ 2 :=
          (pow_lt_pow_iff_left₀ (mul_nonneg (by linarith) hs.le) (abs_nonneg _) two_ne_zero).symm
        rw [h2, mul_pow, hs2, sq_abs]
        exact_mod_cast Iff.rfl
  · intro m n
    simp only [realTests, ratTests]
    refine decide_eq_decide.2 ?_
    rw [hnormal, hnormal]
    have nA := nn (real3 (normal m))
    have nB := nn (real3 (normal n))
    have hcs := lagrange (real3 (normal m)) (real3 (normal n))
    have ncr := nn (cross3 (real3 (normal m)) (real3 (normal n)))
    simp only [real3_dot, real3_cross] at nA nB hcs ncr ⊢
    generalize dot3 (normal m) (normal m) = A at *
    generalize dot3 (normal n) (normal n) = B at *
    generalize dot3 (normal m) (normal n) = D at *
    generalize dot3 (cross3 (normal m) (normal n)) (cross3 (normal m) (normal n)) = E at *
    have hle : (D : ℝ) ≤ Real.sqrt A * Real.sqrt B := by
      rw [← Real.sqrt_mul nA]
      refine Real.le_sqrt_of_sq_le ?_
      linarith
    rw [abs_sub_comm, abs_of_nonneg (by linarith), sub_lt_iff_lt_add', sqrt_mul_lt nA nB]
    exact_mod_cast Iff.rfl
  · intro a b c d
    simp only [realTests, ratTests]
    refine decide_eq_decide.2 ?_
    have nA := nn (real3 b - real3 a)
    simp only [real3_sub, real3_dot] at nA ⊢
    rw [lt_sub_iff_add_lt, lt_sqrt_mul nA (by positivity)]
    exact_mod_cast Iff.rfl
  · intro a b c d e f
    simp only [realTests, ratTests]
    refine decide_eq_decide.2 ?_
    simp only [real3_sub, real3_cross, real3_dot]
    exact_mod_cast Iff.rfl
end Verif.Simplify3
