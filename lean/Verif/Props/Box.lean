import Verif.Proofs.Box
import Mathlib.Algebra.Order.Field.Rat
import Mathlib.Algebra.Order.Ring.Unbundled.Rat
/- C35: bounding boxes. -/
namespace Verif.Geom
open Verif Verif.Mesh
section
variable {K : Type} [Field K] [LinearOrder K]

/-- One process: the box of a non-empty set of points is the tight one. -/
theorem C35_box (dbg : Bool) {big : K} {d : Nat} {pos : List K} (hd : 0 < d) (hdv : d ∣ pos.length) (h0 : pos ≠ []) (hr : ∀ v ∈ pos, -big ≤ v ∧ v ≤ big) :
    ∃ box, localBox dbg big d pos = .ok box ∧ IsBox d (pointsOf d pos) box := by
  refine ⟨_, localBox_ok dbg hdv, ?_⟩
  apply isBox_mk.mpr
  intro j hj
  obtain ⟨h1, h2, h3⟩ := span_spec (vals_ne (j := j) hd hdv h0) fun v hv => hr v (vals_mem hj hv)
  simp only [coordOf_pointsOf hj]
  exact ⟨h1, h2, h3⟩

/-- Any number of processes, some of which may have no points: every process is left with the tight box of all points. -/
theorem C35_global (dbg : Bool) {big : K} {d : Nat} {procs : List (List K)} (hd : 0 < d) (hdv : ∀ pos ∈ procs, d ∣ pos.length) (h0 : ∃ pos ∈ procs, pos ≠ [])
    (hr : ∀ pos ∈ procs, ∀ v ∈ pos, -big ≤ v ∧ v ≤ big) : ∃ box, globalBox dbg big d procs = .ok box ∧ IsBox d (procs.flatMap (pointsOf d)) box := by
  have e : globalBox dbg big d procs = .ok (mkBox d fun j => (allReduce min (procs.map fun pos => (span big (vals d j pos)).1), allReduce max (procs.map fun pos => (span big (vals d j pos)).2))) := by
    unfold globalBox
    rw [mapM_ok (f := fun pos => mkBox d fun j => span big (vals d j pos)) procs fun pos hp => localBox_ok dbg (hdv pos hp), Res.ok_bind]
    exact reduceBoxes_ok
  refine ⟨_, e, isBox_mk.mpr fun j hj => ?_⟩
  simp only [coordOf_flatMap, coordOf_pointsOf hj]
  obtain ⟨p0, hp0, h0⟩ := h0
  have ne1 : (procs.map fun pos => (span big (vals d j pos)).1) ≠ [] := by simp; rintro rfl; simp at hp0
  have ne2 : (procs.map fun pos => (span big (vals d j pos)).2) ≠ [] := by simp; rintro rfl; simp at hp0
  obtain ⟨m1, m2⟩ := reduce_min ne1
  obtain ⟨x1, x2⟩ := reduce_max ne2
  have sp : ∀ pos ∈ procs, pos ≠ [] → _ := fun pos hp hne => span_spec (big := big) (vals_ne (j := j) hd (hdv pos hp) hne) fun v hv => hr pos hp v (vals_mem hj hv)
  -- a value of a process with points
  obtain ⟨w, hw⟩ := List.exists_mem_of_ne_nil _ (vals_ne (j := j) hd (hdv p0 hp0) h0)
  have hw1 := (hr p0 hp0 w (vals_mem hj hw))
  have nil : ∀ pos : List K, pos = [] → vals d j pos = [] := by rintro _ rfl; simp [vals]
  refine ⟨?_, ?_, ?_⟩
  · rintro x ⟨pos, hp, hx⟩
    have hne : pos ≠ [] := by rintro rfl; rw [nil [] rfl] at hx; simp at hx
    obtain ⟨s1, _, _⟩ := sp pos hp hne
    exact ⟨le_trans (m2 _ (List.mem_map.mpr ⟨pos, hp, rfl⟩)) (s1 x hx).1, le_trans (s1 x hx).2 (x2 _ (List.mem_map.mpr ⟨pos, hp, rfl⟩))⟩
  · obtain ⟨pos, hp, hm⟩ := List.mem_map.mp m1
    by_cases hne : pos = []
    · -- the minimum is the start value, so the value `w` is that too
      have e1 : (span big (vals d j pos)).1 = big := by rw [nil pos hne]; rfl
      obtain ⟨s1, s2, _⟩ := sp p0 hp0 h0
      refine ⟨p0, hp0, ?_⟩
      have l1 := m2 _ (List.mem_map.mpr ⟨p0, hp0, rfl⟩)
      have l2 := (s1 w hw).1
      rw [← hm, e1]
      rw [← hm, e1] at l1
      have : (span big (vals d j p0)).1 = big := le_antisymm (hr p0 hp0 _ (vals_mem hj s2)).2 l1
      rw [← this]; exact s2
    · exact ⟨pos, hp, by show allReduce min _ ∈ _; rw [← hm]; exact (sp pos hp hne).2.1⟩
  · obtain ⟨pos, hp, hm⟩ := List.mem_map.mp x1
    by_cases hne : pos = []
    · have e1 : (span big (vals d j pos)).2 = -big := by rw [nil pos hne]; rfl
      obtain ⟨s1, _, s3⟩ := sp p0 hp0 h0
      refine ⟨p0, hp0, ?_⟩
      have l1 := x2 _ (List.mem_map.mpr ⟨p0, hp0, rfl⟩)
      rw [← hm, e1]
      rw [← hm, e1] at l1
      have : (span big (vals d j p0)).2 = -big := le_antisymm l1 (hr p0 hp0 _ (vals_mem hj s3)).1
      rw [← this]; exact s3
    · exact ⟨pos, hp, by show allReduce max _ ∈ _; rw [← hm]; exact (sp pos hp hne).2.2⟩

/-- The distributed tessellator without a boundary uses the tight box of the generators of all processes. -/
theorem C35_unbounded (dbg : Bool) {big : K} {d : Nat} {procs : List (List K)} (hd : 0 < d) (hdv : ∀ pos ∈ procs, d ∣ pos.length) (h0 : ∃ pos ∈ procs, pos ≠ [])
    (hr : ∀ pos ∈ procs, ∀ v ∈ pos, -big ≤ v ∧ v ≤ big) : ∃ box, unboundedBoxGlobal dbg big d procs = .ok box ∧ IsBox d (procs.flatMap (pointsOf d)) box :=
  C35_global dbg hd hdv h0 hr

/-- How the box splits over processes does not matter. -/
theorem C35_split (dbg : Bool) {big : K} {d : Nat} {procs : List (List K)} (hd : 0 < d) (hdv : ∀ pos ∈ procs, d ∣ pos.length) (h0 : ∃ pos ∈ procs, pos ≠ [])
    (hr : ∀ pos ∈ procs, ∀ v ∈ pos, -big ≤ v ∧ v ≤ big) : globalBox dbg big d procs = localBox dbg big d procs.flatten := by
  have hdv' : d ∣ procs.flatten.length := by
    clear h0 hr
    induction procs with
    | nil => simp
    | cons a l ih =>
      simp only [List.flatten_cons, List.length_append]
      exact Nat.dvd_add (hdv a (by simp)) (ih fun p hp => hdv p (by simp [hp]))
  have pts : procs.flatMap (pointsOf d) = pointsOf d procs.flatten := by
    clear h0 hr hdv'
    induction procs with
    | nil => simp [pointsOf]
    | cons a l ih =>
      rw [List.flatMap_cons, ih fun p hp => hdv p (by simp [hp]), List.flatten_cons]
      obtain ⟨k, hk⟩ := hdv a (by simp)
      simp only [pointsOf, List.length_append]
      rw [hk, Nat.mul_add_div hd, Nat.mul_div_cancel_left _ hd, List.range_add, List.map_append, List.map_map]
      congr 1
      · apply List.map_congr_left
        intro i hi
        have hi := List.mem_range.mp hi
        have : d * i + d ≤ a.length := by rw [hk, ← Nat.mul_succ]; exact Nat.mul_le_mul_left _ hi
        rw [List.drop_append_of_le_length (by omega), List.take_append_of_le_length (by simp; omega)]
      · apply List.map_congr_left
        intro i _
        simp only [Function.comp]
        rw [Nat.mul_add, ← hk, List.drop_append, List.drop_of_length_le (l := a) (Nat.le_add_right _ _), List.nil_append, Nat.add_sub_cancel_left]
  have ne : procs.flatten ≠ [] := by
    obtain ⟨p, hp, h⟩ := h0
    obtain ⟨v, hv⟩ := List.exists_mem_of_ne_nil _ h
    intro e
    have : v ∈ procs.flatten := List.mem_flatten.mpr ⟨p, hp, hv⟩
    rw [e] at this; simp at this
  obtain ⟨b1, e1, i1⟩ := C35_global dbg hd hdv h0 hr
  obtain ⟨b2, e2, i2⟩ := C35_box dbg (big := big) hd hdv' ne (by
    intro v hv
    obtain ⟨p, hp, h⟩ := List.mem_flatten.mp hv
    exact hr p hp v h)
  rw [pts] at i1
  rw [e1, e2]
  congr 1
  apply List.ext_getElem
  · rw [i1.1.1, i2.1.1]
  · intro j h1 h2
    have g1 : b1[j]? = some b1[j] := by simp [h1]
    have g2 : b2[j]? = some b2[j] := by simp [h2]
    obtain ⟨⟨p, hp, a1⟩, ⟨q, hq, a2⟩⟩ := i1.2 j _ g1
    obtain ⟨⟨r, hr', c1⟩, ⟨s, hs, c2⟩⟩ := i2.2 j _ g2
    refine Prod.ext (le_antisymm (i1.1.2 r hr' j _ _ g1 c1).1 (i2.1.2 p hp j _ _ g2 a1).1) (le_antisymm (i2.1.2 q hq j _ _ g2 a2).2 (i1.1.2 s hs j _ _ g1 c2).2)
end

/-- Four points on three processes, one of which has none. -/
example : globalBox true (100 : ℚ) 2 [[1, 5, -2, 3], [], [4, 4, 0, 9]] = .ok [(-2, 4), (3, 9)] ∧ (∀ pos ∈ [[1, 5, -2, 3], [], [(4 : ℚ), 4, 0, 9]], 2 ∣ pos.length ∧ ∀ v ∈ pos, -100 ≤ v ∧ v ≤ 100) := by
  decide +kernel

section
variable {K : Type} [Field K] [LinearOrder K]

omit [Field K] in
theorem zip_mkBox {d : Nat} {f g : Nat → K × K} :
    List.zipWith (fun a b => (min a.1 b.1, max a.2 b.2)) (mkBox d f) (mkBox d g) = mkBox d fun j => (min (f j).1 (g j).1, max (f j).2 (g j).2) := by
  simp [mkBox, List.zipWith_map]

omit [Field K] in
theorem mergeBox_mk {d : Nat} {f g : Nat → K × K} {n : Nat} :
    mergeBox n (mkBox d f) (mkBox d g) = if n = 0 then mkBox d f else mkBox d fun j => (min (f j).1 (g j).1, max (f j).2 (g j).2) := by
  induction n with
  | zero => simp [mergeBox]
  | succ n ih =>
    have e : mergeBox (n + 1) (mkBox d f) (mkBox d g) = List.zipWith (fun a b => (min a.1 b.1, max a.2 b.2)) (mergeBox n (mkBox d f) (mkBox d g)) (mkBox d g) := by
      simp [mergeBox, List.range_succ]
    rw [e, ih, if_neg (Nat.succ_ne_zero n)]
    split
    · exact zip_mkBox
    · rw [zip_mkBox]
      congr 1
      funext j
      simp [min_assoc, max_assoc]

/-- Expanding on one process: the old box and all new points are inside the new box, and every side is an old one or touched by a new point. -/
theorem C35_expand (dbg : Bool) {big : K} {d : Nat} {pos : List K} {old : List (K × K)} (hd : 0 < d) (hdv : d ∣ pos.length) (hr : ∀ v ∈ pos, -big ≤ v ∧ v ≤ big) (ho : old.length = d) :
    ∃ box, expandLocal dbg big d pos old = .ok box ∧ BoxIn old box ∧ Bounds d (pointsOf d pos) box ∧ SidesFrom (pointsOf d pos) [old] box := by
  haveI : Inhabited K := ⟨0⟩
  obtain ⟨f, rfl⟩ := eq_mkBox ho
  have e : expandLocal dbg big d pos (mkBox d f) = .ok (mergeBox (pos.length / d) (mkBox d f) (mkBox d fun j => span big (vals d j pos))) := by
    unfold expandLocal
    rw [localBox_ok dbg hdv]; rfl
  refine ⟨_, e, ?_⟩
  rw [mergeBox_mk]
  by_cases h0 : pos = []
  · subst h0
    rw [if_pos (by simp)]
    refine ⟨fun j u v hu hv => ?_, ⟨by simp [mkBox], by simp [pointsOf]⟩, fun j b hb => ⟨Or.inr ⟨_, by simp, b, hb, rfl⟩, Or.inr ⟨_, by simp, b, hb, rfl⟩⟩⟩
    rw [hu] at hv; injection hv with hv; subst hv
    exact ⟨le_refl _, le_refl _⟩
  · have hn : ¬ pos.length / d = 0 := Nat.ne_of_gt (Nat.div_pos (Nat.le_of_dvd (List.length_pos_iff.mpr h0) hdv) hd)
    rw [if_neg hn]
    refine ⟨fun j u v hu hv => ?_, ⟨by simp [mkBox], fun p hp j b x hb hx => ?_⟩, fun j b hb => ?_⟩
    · obtain ⟨hj, rfl⟩ := mkBox_get.mp hu
      obtain ⟨_, rfl⟩ := mkBox_get.mp hv
      exact ⟨min_le_left _ _, le_max_left _ _⟩
    · obtain ⟨hj, rfl⟩ := mkBox_get.mp hb
      obtain ⟨s1, _, _⟩ := span_spec (big := big) (vals_ne (j := j) hd hdv h0) fun v hv => hr v (vals_mem hj hv)
      have hx' := (coordOf_pointsOf hj).mp ⟨p, hp, hx⟩
      exact ⟨le_trans (min_le_right _ _) (s1 x hx').1, le_trans (s1 x hx').2 (le_max_right _ _)⟩
    · obtain ⟨hj, rfl⟩ := mkBox_get.mp hb
      obtain ⟨_, s2, s3⟩ := span_spec (big := big) (vals_ne (j := j) hd hdv h0) fun v hv => hr v (vals_mem hj hv)
      have fj : (mkBox d f)[j]? = some (f j) := mkBox_get.mpr ⟨hj, rfl⟩
      constructor
      · rcases min_choice (f j).1 (span big (vals d j pos)).1 with h | h
        · exact Or.inr ⟨_, by simp, f j, fj, h.symm⟩
        · left; rw [h]; exact (coordOf_pointsOf hj).mpr s2
      · rcases max_choice (f j).2 (span big (vals d j pos)).2 with h | h
        · exact Or.inr ⟨_, by simp, f j, fj, h.symm⟩
        · left; rw [h]; exact (coordOf_pointsOf hj).mpr s3

/-- Expanding over all processes: every process is left with one box that holds the boxes all processes passed in and all their points, and every side comes from one of these. -/
theorem C35_expand_global (dbg : Bool) {big : K} {d : Nat} {procs : List (List K × List (K × K))} (hd : 0 < d) (hp0 : procs ≠ []) (hdv : ∀ p ∈ procs, d ∣ p.1.length)
    (hr : ∀ p ∈ procs, ∀ v ∈ p.1, -big ≤ v ∧ v ≤ big) (ho : ∀ p ∈ procs, p.2.length = d) :
    ∃ box, expandGlobal dbg big d procs = .ok box ∧ (∀ p ∈ procs, BoxIn p.2 box) ∧ Bounds d (procs.flatMap fun p => pointsOf d p.1) box ∧
      SidesFrom (procs.flatMap fun p => pointsOf d p.1) (procs.map Prod.snd) box := by
  haveI : Inhabited K := ⟨0⟩
  set g : Nat → K × K := fun j => (allReduce min ((procs.map Prod.fst).map fun pos => (span big (vals d j pos)).1), allReduce max ((procs.map Prod.fst).map fun pos => (span big (vals d j pos)).2)) with hg
  have hdv' : ∀ pos ∈ procs.map Prod.fst, d ∣ pos.length := by
    intro pos hp; obtain ⟨p, hp', rfl⟩ := List.mem_map.mp hp; exact hdv p hp'
  have e1 : globalBox dbg big d (procs.map Prod.fst) = .ok (mkBox d g) := by
    unfold globalBox
    rw [mapM_ok (f := fun pos => mkBox d fun j => span big (vals d j pos)) _ fun pos hp => localBox_ok dbg (hdv' pos hp), Res.ok_bind]
    exact reduceBoxes_ok
  -- the boxes passed in, as functions
  have hf : ∀ p ∈ procs, p.2 = mkBox d fun j => p.2.getD j default := by
    intro p hp
    apply List.ext_getElem
    · simp [mkBox, ho p hp]
    · intro i h1 h2; simp [mkBox, List.getD, h1]
  set F : List K × List (K × K) → Nat → K × K := fun p j => if p.1.length / d = 0 then p.2.getD j default else (min (p.2.getD j default).1 (g j).1, max (p.2.getD j default).2 (g j).2) with hF
  have e2 : (procs.map fun p => mergeBox (p.1.length / d) p.2 (mkBox d g)) = procs.map fun p => mkBox d (F p) := by
    apply List.map_congr_left
    intro p hp
    rw [show mergeBox (p.1.length / d) p.2 (mkBox d g) = mergeBox (p.1.length / d) (mkBox d fun j => p.2.getD j default) (mkBox d g) by rw [← hf p hp], mergeBox_mk]
    by_cases h : p.1.length / d = 0
    · rw [if_pos h]
      congr 1; funext j; rw [hF]; dsimp only; rw [if_pos h]
    · rw [if_neg h]
      congr 1; funext j; rw [hF]; dsimp only; rw [if_neg h]
  refine ⟨mkBox d fun j => (allReduce min (procs.map fun p => (F p j).1), allReduce max (procs.map fun p => (F p j).2)), ?_, ?_, ⟨by simp [mkBox], ?_⟩, ?_⟩
  · unfold expandGlobal
    rw [e1, Res.ok_bind, e2]
    exact reduceBoxes_ok
  · intro p hp j u v hu hv
    obtain ⟨hj, rfl⟩ := mkBox_get.mp hv
    have hu' : p.2.getD j default = u := by simp [List.getD, hu]
    have m := (reduce_min (vs := procs.map fun p => (F p j).1) (by simpa using hp0)).2 _ (List.mem_map.mpr ⟨p, hp, rfl⟩)
    have x := (reduce_max (vs := procs.map fun p => (F p j).2) (by simpa using hp0)).2 _ (List.mem_map.mpr ⟨p, hp, rfl⟩)
    have f1 : (F p j).1 ≤ u.1 := by
      rw [hF]; dsimp only; split
      · rw [hu']
      · rw [hu']; exact min_le_left _ _
    have f2 : u.2 ≤ (F p j).2 := by
      rw [hF]; dsimp only; split
      · rw [hu']
      · rw [hu']; exact le_max_left _ _
    exact ⟨le_trans m f1, le_trans f2 x⟩
  · intro q hq j b x hb hx
    obtain ⟨hj, rfl⟩ := mkBox_get.mp hb
    obtain ⟨p, hp, hq⟩ := List.mem_flatMap.mp hq
    have hxv := (coordOf_pointsOf hj).mp ⟨q, hq, hx⟩
    have hne : p.1 ≠ [] := by rintro h; rw [h] at hxv; simp [vals] at hxv
    have hn : ¬ p.1.length / d = 0 := Nat.ne_of_gt (Nat.div_pos (Nat.le_of_dvd (List.length_pos_iff.mpr hne) (hdv p hp)) hd)
    obtain ⟨box, eb, ib⟩ := C35_global (procs := procs.map Prod.fst) dbg (big := big) hd hdv' ⟨p.1, List.mem_map.mpr ⟨p, hp, rfl⟩, hne⟩ (by
      intro pos hpos; obtain ⟨p', hp', rfl⟩ := List.mem_map.mp hpos; exact hr p' hp')
    rw [e1] at eb; injection eb with eb; subst eb
    have hgx := ((isBox_mk.mp ib) j hj).1 x (coordOf_flatMap.mpr ⟨p.1, List.mem_map.mpr ⟨p, hp, rfl⟩, q, hq, hx⟩)
    have m := (reduce_min (vs := procs.map fun p => (F p j).1) (by simpa using hp0)).2 _ (List.mem_map.mpr ⟨p, hp, rfl⟩)
    have xx := (reduce_max (vs := procs.map fun p => (F p j).2) (by simpa using hp0)).2 _ (List.mem_map.mpr ⟨p, hp, rfl⟩)
    have f1 : (F p j).1 ≤ (g j).1 := by rw [hF]; dsimp only; rw [if_neg hn]; exact min_le_right _ _
    have f2 : (g j).2 ≤ (F p j).2 := by rw [hF]; dsimp only; rw [if_neg hn]; exact le_max_right _ _
    exact ⟨le_trans m (le_trans f1 hgx.1), le_trans hgx.2 (le_trans f2 xx)⟩
  · intro j b hb
    obtain ⟨hj, rfl⟩ := mkBox_get.mp hb
    have get : ∀ p ∈ procs, p.2[j]? = some (p.2.getD j default) := by
      intro p hp
      have : j < p.2.length := by rw [ho p hp]; exact hj
      simp [List.getD, this]
    have gbox : ∀ p ∈ procs, ¬ p.1.length / d = 0 → CoordOf (procs.flatMap fun p => pointsOf d p.1) j (g j).1 ∧ CoordOf (procs.flatMap fun p => pointsOf d p.1) j (g j).2 := by
      intro p hp hn
      have hne : p.1 ≠ [] := by rintro h; rw [h] at hn; simp at hn
      obtain ⟨box, eb, ib⟩ := C35_global (procs := procs.map Prod.fst) dbg (big := big) hd hdv' ⟨p.1, List.mem_map.mpr ⟨p, hp, rfl⟩, hne⟩ (by
        intro pos hpos; obtain ⟨p', hp', rfl⟩ := List.mem_map.mp hpos; exact hr p' hp')
      rw [e1] at eb; injection eb with eb; subst eb
      have := ((isBox_mk.mp ib) j hj).2
      rw [List.flatMap_map] at this
      exact this
    constructor
    · have m := (reduce_min (vs := procs.map fun p => (F p j).1) (by simpa using hp0)).1
      obtain ⟨p, hp, hm⟩ := List.mem_map.mp m
      show CoordOf _ j (allReduce min _) ∨ ∃ o ∈ _, ∃ c : K × K, o[j]? = some c ∧ c.1 = allReduce min _
      rw [← hm, hF]; dsimp only
      split
      · exact Or.inr ⟨p.2, List.mem_map.mpr ⟨p, hp, rfl⟩, _, get p hp, rfl⟩
      · rename_i hn
        rcases min_choice (p.2.getD j default).1 (g j).1 with h | h
        · exact Or.inr ⟨p.2, List.mem_map.mpr ⟨p, hp, rfl⟩, _, get p hp, h.symm⟩
        · left; rw [h]; exact (gbox p hp hn).1
    · have m := (reduce_max (vs := procs.map fun p => (F p j).2) (by simpa using hp0)).1
      obtain ⟨p, hp, hm⟩ := List.mem_map.mp m
      show CoordOf _ j (allReduce max _) ∨ ∃ o ∈ _, ∃ c : K × K, o[j]? = some c ∧ c.2 = allReduce max _
      rw [← hm, hF]; dsimp only
      split
      · exact Or.inr ⟨p.2, List.mem_map.mpr ⟨p, hp, rfl⟩, _, get p hp, rfl⟩
      · rename_i hn
        rcases max_choice (p.2.getD j default).2 (g j).2 with h | h
        · exact Or.inr ⟨p.2, List.mem_map.mpr ⟨p, hp, rfl⟩, _, get p hp, h.symm⟩
        · left; rw [h]; exact (gbox p hp hn).2

theorem allReduce_min_const {v : K} : ∀ n, allReduce min ((List.range (n + 1)).map fun _ => v) = v := by
  intro n
  have := (reduce_min (vs := (List.range (n + 1)).map fun _ => v) (by simp)).1
  obtain ⟨_, _, h⟩ := List.mem_map.mp this
  exact h.symm

theorem allReduce_max_const {v : K} : ∀ n, allReduce max ((List.range (n + 1)).map fun _ => v) = v := by
  intro n
  have := (reduce_max (vs := (List.range (n + 1)).map fun _ => v) (by simp)).1
  obtain ⟨_, _, h⟩ := List.mem_map.mp this
  exact h.symm

/-- The box of a boundary on any number of processes: tight around the points its facets name. -/
theorem C35_boundary {big : K} {d n : Nat} {facets : List (List Int)} {pos : List K} (hr : ∀ v ∈ pos, -big ≤ v ∧ v ≤ big)
    (hid : ∀ f ∈ facets, ∀ i ∈ f, 0 ≤ i ∧ d * i.toNat + d ≤ pos.length) (hne : ∃ f ∈ facets, f ≠ []) :
    ∃ box, plcBoxGlobal big d (n + 1) facets pos = .ok box ∧ IsBox d (facets.flatten.map fun i => (pos.drop (d * i.toNat)).take d) box := by
  set vs : Nat → List K := fun j => facets.flatten.map fun i => pos.getD (d * i.toNat + j) 0 with hvs
  have hid' : ∀ i ∈ facets.flatten, 0 ≤ i ∧ d * i.toNat + d ≤ pos.length := by
    intro i hi; obtain ⟨f, hf, hi⟩ := List.mem_flatten.mp hi; exact hid f hf i hi
  have e1 : plcBox big d facets pos = .ok (mkBox d fun j => span big (vs j)) := by
    unfold plcBox
    refine mapM_ok _ fun j hj => ?_
    have hj := List.mem_range.mp hj
    have gen : ∀ (l : List Int) (b : K × K), (∀ i ∈ l, 0 ≤ i ∧ d * i.toNat + d ≤ pos.length) →
        l.foldlM (facetPoint d j pos) b = .ok ((l.map fun i => pos.getD (d * i.toNat + j) 0).foldl min b.1, (l.map fun i => pos.getD (d * i.toNat + j) 0).foldl max b.2) := by
      intro l
      induction l with
      | nil => intro b _; rfl
      | cons i l ih =>
        intro b hl
        obtain ⟨h1, h2⟩ := hl i (by simp)
        rw [List.foldlM_cons, facetPoint, if_neg (by omega), rd_getD (show d * i.toNat + j < pos.length by omega) 0, Res.ok_bind]
        exact ih _ fun k hk => hl k (by simp [hk])
    exact gen _ _ hid'
  have e2 : plcBoxGlobal big d (n + 1) facets pos = .ok (mkBox d fun j => span big (vs j)) := by
    unfold plcBoxGlobal
    rw [mapM_ok (f := fun _ => mkBox d fun j => span big (vs j)) _ fun _ _ => e1, Res.ok_bind]
    rw [reduceBoxes_ok (f := fun _ j => span big (vs j))]
    simp only [allReduce_min_const, allReduce_max_const]
  refine ⟨_, e2, isBox_mk.mpr fun j hj => ?_⟩
  have co : ∀ x, CoordOf (facets.flatten.map fun i => (pos.drop (d * i.toNat)).take d) j x ↔ x ∈ vs j := by
    intro x
    unfold CoordOf
    rw [hvs]
    simp only [List.mem_map]
    constructor
    · rintro ⟨p, ⟨i, hi, rfl⟩, hx⟩
      refine ⟨i, hi, ?_⟩
      rw [List.getElem?_take_of_lt hj, List.getElem?_drop] at hx
      simp [List.getD, hx]
    · rintro ⟨i, hi, rfl⟩
      refine ⟨_, ⟨i, hi, rfl⟩, ?_⟩
      rw [List.getElem?_take_of_lt hj, List.getElem?_drop]
      have := (hid' i hi).2
      have : d * i.toNat + j < pos.length := by omega
      simp [List.getD, this]
  simp only [co]
  refine span_spec ?_ ?_
  · obtain ⟨f, hf, hne⟩ := hne
    obtain ⟨i, hi⟩ := List.exists_mem_of_ne_nil _ hne
    intro e
    have := List.map_eq_nil_iff.mp e
    have h : i ∈ facets.flatten := List.mem_flatten.mpr ⟨f, hf, hi⟩
    rw [this] at h; simp at h
  · intro v hv
    obtain ⟨i, hi, rfl⟩ := List.mem_map.mp hv
    have := (hid' i hi).2
    have h : d * i.toNat + j < pos.length := by omega
    apply hr
    rw [show pos.getD (d * i.toNat + j) 0 = pos[d * i.toNat + j] by simp [List.getD, h]]
    exact List.getElem_mem _
end

/-- The hypotheses of the other theorems hold for literal data; the unused fourth point does not count for the box of a boundary. -/
example : expandGlobal true (100 : ℚ) 2 [([1, 5, -2, 3], [(0, 1), (0, 1)]), ([], [(-7, -6), (2, 3)])] = .ok [(-7, 1), (0, 5)] ∧
    expandLocal true (100 : ℚ) 2 [] [(0, 1), (0, 1)] = .ok [(0, 1), (0, 1)] ∧ expandLocal true (100 : ℚ) 2 [5, 5, -1, -1] [(0, 1), (0, 1)] = .ok [(-1, 5), (-1, 5)] ∧
    plcBoxGlobal (100 : ℚ) 2 3 [[0, 1], [1, 2], [2, 0]] [0, 0, 4, 1, 2, 8, 50, 50] = .ok [(0, 4), (0, 8)] ∧
    (∀ f ∈ [[(0 : Int), 1], [1, 2], [2, 0]], ∀ i ∈ f, 0 ≤ i ∧ 2 * i.toNat + 2 ≤ 8) := by
  decide +kernel
end Verif.Geom
