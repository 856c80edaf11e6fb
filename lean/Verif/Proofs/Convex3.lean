import Verif.Proofs.Convex
/- Clouds of points against planes in space. -/
namespace Verif.Geom
open Verif Verif.Mesh
section
variable {K : Type} [Field K] [LinearOrder K] [IsStrictOrderedRing K]

omit [LinearOrder K] [IsStrictOrderedRing K] in
theorem rdV3_vtx {l : List K} {k : Nat} (h : k < l.length / 3) : rdV3 l k = .ok (vtx3 l k) := by
  unfold rdV3
  rw [rd_getD (by omega) 0, rd_getD (by omega) 0, rd_getD (by omega) 0]
  rfl

omit [LinearOrder K] [IsStrictOrderedRing K] in
theorem mem_pts3 {l : List K} {v : V3 K} : v ∈ pts3 l ↔ ∃ k, k < l.length / 3 ∧ vtx3 l k = v := by
  simp [pts3]

omit [IsStrictOrderedRing K] in
theorem aboveBelow3_eq (o n p : V3 K) : aboveBelow3 o n p = if dot3 n (p - o) < 0 then -1 else if dot3 n (p - o) > 0 then 1 else 0 := rfl

omit [IsStrictOrderedRing K] in
theorem cloudSide3_spec {dbg : Bool} {l : List K} (he : l.length % 3 = 0) (h0 : 0 < l.length) (o n : V3 K) :
    ∃ s, cloudSide3 dbg o n l = .ok s ∧ (s = -1 ↔ ∀ v ∈ pts3 l, dot3 n (v - o) < 0) ∧ (s = 1 ↔ ∀ v ∈ pts3 l, 0 < dot3 n (v - o)) := by
  unfold cloudSide3
  rw [Res.assert_true dbg he, Res.ok_bind, Res.assert_true dbg (by omega), Res.ok_bind]
  dsimp only
  rw [rdV3_vtx (k := 0) (by omega), Res.ok_bind]
  obtain ⟨s, h1, h2⟩ := cloudSideLoop_spec (read := rdV3 l) (side := aboveBelow3 o n) (v := fun k => vtx3 l k) (result := aboveBelow3 o n (vtx3 l 0))
    (fuel := l.length / 3 - 1) (i := 1) (fun k hk1 hk2 => rdV3_vtx (by omega))
  refine ⟨s, h1, ?_⟩
  have gen : ∀ w : Int, w ≠ 0 → (s = w ↔ ∀ v ∈ pts3 l, aboveBelow3 o n v = w) := by
    intro w hw
    rcases h2 with ⟨ha, e⟩ | ⟨⟨k, hk1, hk2, hk⟩, e⟩
    · rw [e]
      constructor
      · intro h v hv
        obtain ⟨k, hk, rfl⟩ := mem_pts3.mp hv
        rcases Nat.eq_zero_or_pos k with rfl | hp
        · exact h
        · rw [ha k hp (by omega), h]
      · intro h
        exact h _ (mem_pts3.mpr ⟨0, by omega, rfl⟩)
    · rw [e]
      constructor
      · intro h; exact absurd h.symm hw
      · intro h
        exact absurd ((h _ (mem_pts3.mpr ⟨k, by omega, rfl⟩)).trans (h _ (mem_pts3.mpr ⟨0, by omega, rfl⟩)).symm) hk
  constructor
  · rw [gen (-1) (by decide)]
    refine forall₂_congr fun v _ => ?_
    rw [aboveBelow3_eq]
    split
    · simp [*]
    · split <;> simp [*]
  · rw [gen 1 (by decide)]
    refine forall₂_congr fun v _ => ?_
    rw [aboveBelow3_eq]
    split
    · rename_i h; simp [not_lt.mpr h.le]
    · split <;> simp_all

omit [IsStrictOrderedRing K] in
theorem scan3_spec {dbg : Bool} {b : RPLC K} {bound : Nat} (hbound : b.points.length / 3 ≤ bound) {l : List K} (he : l.length % 3 = 0) (h0 : 0 < l.length) {stop : Int → Bool}
    {bad : V3 K → V3 K → Prop} (hstop : ∀ o n s, cloudSide3 dbg o n l = .ok s → (stop s = true ↔ bad o n)) :
    ∀ {fs : List (List Int)}, (∀ f ∈ fs, 3 ≤ f.length ∧ ∀ i ∈ f, 0 ≤ i ∧ i < ((b.points.length / 3 : Nat) : Int)) →
    ∃ r, scan3 dbg b bound l stop fs = .ok r ∧
      (r = true ↔ ∃ f ∈ fs, bad (tri3 b.points f 0) (computeNormal (tri3 b.points f 0) (tri3 b.points f 1) (tri3 b.points f 2)))
  | [], _ => ⟨false, rfl, by simp⟩
  | f :: fs, h => by
    obtain ⟨r, hr, hi⟩ := scan3_spec (b := b) hbound he h0 hstop (fs := fs) (fun g hg => h g (List.mem_cons_of_mem _ hg))
    obtain ⟨hl, hids⟩ := h f (by simp)
    obtain ⟨i, j, k, f', rfl⟩ : ∃ i j k f', f = i :: j :: k :: f' := by
      match f, hl with
      | i :: j :: k :: f', _ => exact ⟨i, j, k, f', rfl⟩
    have hi1 := hids i (by simp)
    have hj1 := hids j (by simp)
    have hk1 := hids k (by simp)
    have r1 : rd (i :: j :: k :: f') 0 = .ok i := rfl
    have r2 : rd (i :: j :: k :: f') 1 = .ok j := rfl
    have r3 : rd (i :: j :: k :: f') 2 = .ok k := rfl
    have v1 : rdV3 b.points i.toNat = .ok (tri3 b.points (i :: j :: k :: f') 0) := rdV3_vtx (by omega)
    have v2 : rdV3 b.points j.toNat = .ok (tri3 b.points (i :: j :: k :: f') 1) := rdV3_vtx (by omega)
    have v3 : rdV3 b.points k.toNat = .ok (tri3 b.points (i :: j :: k :: f') 2) := rdV3_vtx (by omega)
    obtain ⟨s, hs, _⟩ := cloudSide3_spec (dbg := dbg) he h0 (tri3 b.points (i :: j :: k :: f') 0)
      (computeNormal (tri3 b.points (i :: j :: k :: f') 0) (tri3 b.points (i :: j :: k :: f') 1) (tri3 b.points (i :: j :: k :: f') 2))
    have hst := hstop _ _ s hs
    simp only [scan3]
    rw [r1, Res.ok_bind, r2, Res.ok_bind, r3, Res.ok_bind, Res.assert_true dbg (by omega), Res.ok_bind, Res.assert_true dbg (by omega), Res.ok_bind, Res.assert_true dbg (by omega), Res.ok_bind,
      if_neg (by omega), v1, Res.ok_bind, v2, Res.ok_bind, v3, Res.ok_bind, hs, Res.ok_bind]
    by_cases hb : stop s = true
    · rw [if_pos hb]
      exact ⟨true, rfl, by simp only [List.mem_cons, exists_eq_or_imp, hst.mp hb, true_or]⟩
    · rw [if_neg hb]
      refine ⟨r, hr, ?_⟩
      rw [hi]
      simp only [List.mem_cons, exists_eq_or_imp]
      exact ⟨Or.inr, fun h => h.resolve_left fun hc => hb (hst.mpr hc)⟩

omit [LinearOrder K] [IsStrictOrderedRing K] in
theorem normal_height (a b c p : V3 K) : dot3 (computeNormal a b c) (p - a) = vol6 a b c p + (b.z - a.z) * ((c.y - a.y) - (c.z - a.z)) * (p.x - a.x) := by
  simp only [dot3, computeNormal, vol6, V3.sub_x, V3.sub_y, V3.sub_z]; ring

theorem hull3_neg {S : List (V3 K)} {a b c : V3 K} (h : ∀ v ∈ S, vol6 a b c v < 0) {p : V3 K} (hp : Hull3 S p) : vol6 a b c p < 0 := by
  induction hp with
  | pt hm => exact h _ hm
  | @seg p q t _ _ h0 h1 ih1 ih2 =>
    have : vol6 a b c (lerp3 p q t) = (1 - t) * vol6 a b c p + t * vol6 a b c q := by simp only [vol6, lerp3]; ring
    rw [this]
    rcases h0.lt_or_eq with h | h
    · exact add_neg_of_nonpos_of_neg (mul_nonpos_of_nonneg_of_nonpos (by linarith) ih1.le) (mul_neg_of_pos_of_neg h ih2)
    · rw [← h]; simpa using ih1

theorem hull3_nonpos {S : List (V3 K)} {a b c : V3 K} (h : ∀ v ∈ S, vol6 a b c v ≤ 0) {p : V3 K} (hp : Hull3 S p) : vol6 a b c p ≤ 0 := by
  induction hp with
  | pt hm => exact h _ hm
  | @seg p q t _ _ h0 h1 ih1 ih2 =>
    have : vol6 a b c (lerp3 p q t) = (1 - t) * vol6 a b c p + t * vol6 a b c q := by simp only [vol6, lerp3]; ring
    rw [this]
    exact add_nonpos (mul_nonpos_of_nonneg_of_nonpos (by linarith) ih1) (mul_nonpos_of_nonneg_of_nonpos h0 ih2)

theorem hull3_pos {S : List (V3 K)} {a b c : V3 K} (h : ∀ v ∈ S, 0 < vol6 a b c v) {p : V3 K} (hp : Hull3 S p) : 0 < vol6 a b c p := by
  have := hull3_neg (S := S) (a := b) (b := a) (c := c) (p := p) (fun v hv => by
    have e : vol6 b a c v = -vol6 a b c v := by unfold vol6; ring
    rw [e]; linarith [h v hv]) hp
  have e : vol6 b a c p = -vol6 a b c p := by unfold vol6; ring
  rw [e] at this; linarith

omit [IsStrictOrderedRing K] in
/-- The test of edge directions uses a plane through a vertex of the first solid, so that solid is never strictly on one side of it. -/
theorem edgeTest_dead (dbg : Bool) {a b : RPLC K} (ha : GoodSolid a) (hb : GoodSolid b) {i j : Int} (hi : 0 ≤ i ∧ i < ((a.points.length / 3 : Nat) : Int))
    (hj : 0 ≤ j ∧ j < ((b.points.length / 3 : Nat) : Int)) : edgeTest dbg a b i j = .ok false := by
  unfold edgeTest
  rw [if_neg (by omega), rdV3_vtx (by omega), Res.ok_bind, rdV3_vtx (by omega), Res.ok_bind]
  dsimp only
  have hz : dot3 (computeNormal 0 (vtx3 a.points i.toNat) (vtx3 b.points j.toNat)) (vtx3 a.points i.toNat - vtx3 a.points i.toNat) = 0 := by simp [dot3]
  have hm : vtx3 a.points i.toNat ∈ pts3 a.points := mem_pts3.mpr ⟨i.toNat, by omega, rfl⟩
  have hs : cloudSide3 dbg (vtx3 a.points i.toNat) (computeNormal 0 (vtx3 a.points i.toNat) (vtx3 b.points j.toNat)) a.points = .ok 0 := by
    unfold cloudSide3
    have h1 := ha.mult
    have h2 := ha.some
    rw [Res.assert_true dbg h1, Res.ok_bind, Res.assert_true dbg (by omega), Res.ok_bind]
    dsimp only
    rw [rdV3_vtx (k := 0) (by omega), Res.ok_bind]
    obtain ⟨s, hs, hc⟩ := cloudSideLoop_spec (read := rdV3 a.points) (side := aboveBelow3 (vtx3 a.points i.toNat) (computeNormal 0 (vtx3 a.points i.toNat) (vtx3 b.points j.toNat)))
      (v := fun k => vtx3 a.points k) (result := aboveBelow3 (vtx3 a.points i.toNat) (computeNormal 0 (vtx3 a.points i.toNat) (vtx3 b.points j.toNat)) (vtx3 a.points 0))
      (fuel := a.points.length / 3 - 1) (i := 1) (fun k hk1 hk2 => rdV3_vtx (by omega))
    rw [hs]
    have hzero : aboveBelow3 (vtx3 a.points i.toNat) (computeNormal 0 (vtx3 a.points i.toNat) (vtx3 b.points j.toNat)) (vtx3 a.points i.toNat) = 0 := by
      rw [aboveBelow3_eq, hz]; simp
    congr 1
    rcases hc with ⟨hall, e⟩ | ⟨_, e⟩
    · rcases Nat.eq_zero_or_pos i.toNat with h0 | hp
      · rw [e, ← h0]; exact hzero
      · rw [e, ← hall i.toNat hp (by omega)]; exact hzero
    · exact e
  rw [hs, Res.ok_bind]
  rfl

omit [IsStrictOrderedRing K] in
theorem mem_edgeInsert {e x : Int × Int} : ∀ {l : List (Int × Int)}, x ∈ edgeInsert e l → x = e ∨ x ∈ l
  | [], h => by simpa [edgeInsert] using h
  | y :: l, h => by
    unfold edgeInsert at h
    split at h
    · simpa using h
    · split at h
      · rcases List.mem_cons.mp h with rfl | h
        · exact Or.inr (by simp)
        · rcases mem_edgeInsert h with h | h
          · exact Or.inl h
          · exact Or.inr (List.mem_cons_of_mem _ h)
      · exact Or.inr h

theorem facetEdges_spec (dbg : Bool) {f : List Int} {n : Nat} (hf : f.Nodup) (hl : 2 ≤ f.length) (hids : ∀ i ∈ f, 0 ≤ i ∧ i < (n : Int)) :
    ∀ {fuel i : Nat} {acc : List (Int × Int)}, i + fuel ≤ f.length → (∀ e ∈ acc, 0 ≤ e.1 ∧ e.1 < (n : Int)) →
    ∃ E, facetEdges dbg f i fuel acc = .ok E ∧ ∀ e ∈ E, 0 ≤ e.1 ∧ e.1 < (n : Int)
  | 0, i, acc, _, h => ⟨acc, rfl, h⟩
  | fuel + 1, i, acc, hi, h => by
    simp only [facetEdges]
    have h1 : i < f.length := by omega
    have h2 : (i + 1) % f.length < f.length := Nat.mod_lt _ (by omega)
    rw [rd_lt h1, Res.ok_bind, rd_lt h2, Res.ok_bind]
    have hne : f[i] ≠ f[(i + 1) % f.length] := by
      intro e
      have := (List.Nodup.getElem_inj_iff hf).mp e
      rcases Nat.lt_or_ge (i + 1) f.length with h | h
      · rw [Nat.mod_eq_of_lt h] at this; omega
      · have hh : i + 1 = f.length := by omega
        rw [hh, Nat.mod_self] at this
        omega
    have hh : hashEdge dbg f[i] f[(i + 1) % f.length] = .ok (if f[i] < f[(i + 1) % f.length] then (f[i], f[(i + 1) % f.length]) else (f[(i + 1) % f.length], f[i])) := by
      unfold hashEdge
      rw [Res.assert_true dbg hne, Res.ok_bind]; rfl
    rw [hh, Res.ok_bind]
    apply facetEdges_spec dbg hf hl hids (by omega)
    intro e he
    rcases mem_edgeInsert he with rfl | he
    · split
      · exact hids _ (List.getElem_mem _)
      · exact hids _ (List.getElem_mem _)
    · exact h e he

theorem allEdges_spec (dbg : Bool) {n : Nat} : ∀ {fs : List (List Int)} {acc : List (Int × Int)}, (∀ f ∈ fs, f.Nodup ∧ 2 ≤ f.length ∧ ∀ i ∈ f, 0 ≤ i ∧ i < (n : Int)) →
    (∀ e ∈ acc, 0 ≤ e.1 ∧ e.1 < (n : Int)) → ∃ E, allEdges dbg fs acc = .ok E ∧ ∀ e ∈ E, 0 ≤ e.1 ∧ e.1 < (n : Int)
  | [], acc, _, h => ⟨acc, rfl, h⟩
  | f :: fs, acc, hf, h => by
    obtain ⟨h1, h2, h3⟩ := hf f (by simp)
    obtain ⟨E, hE, hm⟩ := facetEdges_spec dbg h1 h2 h3 (fuel := f.length) (i := 0) (acc := acc) (by omega) h
    simp only [allEdges]
    rw [hE, Res.ok_bind]
    exact allEdges_spec dbg (fun g hg => hf g (List.mem_cons_of_mem _ hg)) hm

omit [IsStrictOrderedRing K] in
theorem edgeInner_dead (dbg : Bool) {a b : RPLC K} (ha : GoodSolid a) (hb : GoodSolid b) {i : Int} (hi : 0 ≤ i ∧ i < ((a.points.length / 3 : Nat) : Int)) :
    ∀ {E : List (Int × Int)}, (∀ e ∈ E, 0 ≤ e.1 ∧ e.1 < ((b.points.length / 3 : Nat) : Int)) → edgeInner dbg a b i E = .ok false
  | [], _ => rfl
  | e :: E, h => by
    simp only [edgeInner]
    rw [edgeTest_dead dbg ha hb hi (h e (by simp)), Res.ok_bind, if_neg (by simp)]
    exact edgeInner_dead dbg ha hb hi fun x hx => h x (List.mem_cons_of_mem _ hx)

omit [IsStrictOrderedRing K] in
theorem edgeOuter_dead (dbg : Bool) {a b : RPLC K} (ha : GoodSolid a) (hb : GoodSolid b) {F : List (Int × Int)} (hF : ∀ e ∈ F, 0 ≤ e.1 ∧ e.1 < ((b.points.length / 3 : Nat) : Int)) :
    ∀ {E : List (Int × Int)}, (∀ e ∈ E, 0 ≤ e.1 ∧ e.1 < ((a.points.length / 3 : Nat) : Int)) → edgeOuter dbg a b F E = .ok false
  | [], _ => rfl
  | e :: E, h => by
    simp only [edgeOuter]
    rw [edgeInner_dead dbg ha hb (h e (by simp)) hF, Res.ok_bind, if_neg (by simp)]
    exact edgeOuter_dead dbg ha hb hF fun x hx => h x (List.mem_cons_of_mem _ hx)

end
end Verif.Geom
