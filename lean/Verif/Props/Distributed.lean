import Verif.Proofs.Distributed
/- C78: the distributed tessellation as a whole. -/
namespace Verif.Nbr
open Verif Verif.Mesh Verif.Geom Verif.Exch
section
variable {K κ : Type} [Field K] [LinearOrder K] [IsStrictOrderedRing K] [LinearOrder κ]

/-- A run on sensible input, as in `Setup`, in a convex domain that has all the points, with a serial tessellator that returns good meshes. -/
structure Run (dbg : Bool) (hull : List K → Res (RPLC K)) (serial all wrap : List K → Res (Tess K)) (points : List (List K)) (Dom : V2 K → Prop) : Prop
    extends Setup dbg hull serial all points Dom where
  inside : ∀ v ∈ allPts points, Dom v
  convex : ∀ u v t, Dom u → Dom v → 0 ≤ t → t ≤ 1 → Dom (lerp2 u v t)
  wrap_ok : ∀ p nb, p < points.length → neighborsFor dbg hull serial all points p = .ok nb →
    ∃ m, wrap (gensOf points (p :: nb)) = .ok m ∧ GoodMesh m (pts2 (gensOf points (p :: nb))) Dom

section
variable {dbg : Bool} {hull : List K → Res (RPLC K)} {serial all wrap : List K → Res (Tess K)} {points : List (List K)} {Dom : V2 K → Prop}

omit [LinearOrder κ] in
theorem own_ne (hs : Setup dbg hull serial all points Dom) {p : Nat} (hp : p < points.length) : own points p ≠ [] := by
  rw [own_eq hp]
  have h1 := hs.some _ (List.getElem_mem hp)
  have h2 := hs.even _ (List.getElem_mem hp)
  intro h
  have := congrArg List.length h
  rw [pts2_length] at this
  simp only [List.length_nil] at this
  exact h1 (List.length_eq_zero_iff.1 (by omega))

omit [LinearOrder κ] in
/-- The neighbours in a run. -/
theorem run_neighbors (hr : Run dbg hull serial all wrap points Dom) : ∃ nb : Nat → List Nat, (∀ p, p < points.length → neighborsFor dbg hull serial all points p = .ok (nb p)) ∧
    (∀ p, p < points.length → (nb p).Nodup ∧ ∀ q ∈ nb p, q < points.length ∧ q ≠ p ∧ p ∈ nb q) ∧
    (∀ p, p < points.length → 1 < points.length → domainNeighbors dbg hull serial all points p = .ok (nb p) ∧ nb p ≠ []) := by
  by_cases h1 : 1 < points.length
  · obtain ⟨nb, h⟩ := C77_symmetric hr.toSetup
    refine ⟨nb, fun p hp => ?_, fun p hp => ⟨(h p hp).2.1.imp fun h => Nat.ne_of_lt h, (h p hp).2.2⟩, fun p hp _ => ⟨(h p hp).1, ?_⟩⟩
    · unfold neighborsFor; rw [if_pos h1]; exact (h p hp).1
    · obtain ⟨l, e, hl⟩ := C77_some hr.toSetup hr.inside hr.convex h1 hp
      rw [(h p hp).1] at e
      rw [Res.ok.inj e]; exact hl
  · refine ⟨fun _ => [], fun p hp => ?_, fun p hp => ⟨List.nodup_nil, by simp⟩, fun p hp h => absurd h h1⟩
    unfold neighborsFor; rw [if_neg h1]

omit [LinearOrder κ] [IsStrictOrderedRing K] in
theorem mem_allPts {v : V2 K} : v ∈ allPts points ↔ ∃ q, q < points.length ∧ v ∈ own points q := by
  unfold allPts
  rw [List.mem_flatMap]
  constructor
  · rintro ⟨l, hl, hv⟩
    obtain ⟨q, hq, rfl⟩ := List.getElem_of_mem hl
    exact ⟨q, hq, by rw [own_eq hq]; exact hv⟩
  · rintro ⟨q, hq, hv⟩
    rw [own_eq hq] at hv
    exact ⟨_, List.getElem_mem hq, hv⟩

omit [LinearOrder κ] in
/-- If cells that touch always belong to the same process or to neighbours, the cell of an own point among the points known to its process is the cell among all. -/
theorem own_cell (hr : Run dbg hull serial all wrap points Dom) {p : Nat} {nb : List Nat} (hp : p < points.length) (hlt : ∀ q ∈ nb, q < points.length)
    (htouch : ∀ q, q < points.length → q ≠ p → ∀ g ∈ own points p, ∀ h ∈ own points q, ∀ x, Dom x → Closest (allPts points) g x → Closest (allPts points) h x → q ∈ nb)
    {g : V2 K} (hg : g ∈ own points p) {x : V2 K} (hx : Dom x) : Closest ((p :: nb).flatMap (own points)) g x ↔ Closest (allPts points) g x := by
  have hga := own_sub hp hg
  refine closest_global ?_ (List.mem_flatMap.2 ⟨p, by simp, hg⟩) (hr.inside g hga) hr.convex ?_ hx
  · intro v hv
    obtain ⟨q, hq, hvq⟩ := List.mem_flatMap.1 hv
    rcases List.mem_cons.1 hq with rfl | hq
    · exact own_sub hp hvq
    · exact own_sub (hlt q hq) hvq
  · intro Q hQ y hy h1 h2
    obtain ⟨q, hq, hQq⟩ := mem_allPts.1 hQ
    by_cases hqp : q = p
    · subst hqp; exact List.mem_flatMap.2 ⟨q, by simp, hQq⟩
    · exact List.mem_flatMap.2 ⟨q, by simp [htouch q hq hqp g hg Q hQq y hy h1 h2], hQq⟩

omit [LinearOrder κ] [Field K] [LinearOrder K] [IsStrictOrderedRing K] in
theorem loop_congr {m m' : Tess K} (h : m.faces = m'.faces) {C : List Int} (hl : Editor.ClosedLoop m C) : Editor.ClosedLoop m' C := by
  have key : ∀ (C : List Int) a b, Editor.Path m a C b → Editor.Path m' a C b := by
    intro C
    induction C with
    | nil => intro a b h; exact h
    | cons s C ih =>
      rintro a b ⟨h1, h2⟩
      have e : face m = face m' := by unfold face; rw [h]
      refine ⟨?_, ?_⟩
      · unfold Editor.tail at *; rw [← e]; exact h1
      · have := ih _ _ h2
        unfold Editor.head at *; rw [← e]; exact this
  obtain ⟨a, ha⟩ := hl
  exact ⟨a, key C a a ha⟩

omit [LinearOrder κ] in
/-- What a process has before it makes lists of what it shares and removes the cells of the others. -/
theorem run_halo (hr : Run dbg hull serial all wrap points Dom) {p : Nat} {nb : List Nat} (hp : p < points.length) (hnb : neighborsFor dbg hull serial all points p = .ok nb)
    (hnd : nb.Nodup) (hself : p ∉ nb) :
    ∃ m, wrap (gensOf points (p :: nb)) = .ok m ∧ GoodMesh { m with neighborDomains := nb } ((p :: nb).flatMap (own points)) Dom ∧
      Halo 2 p (own points p).length ((p :: nb).flatMap fun q => List.replicate (own points q).length q) { m with neighborDomains := nb } ∧
      ∀ (key : List K → κ) (fkey : Tess K → Nat → Res κ) (srt : List (κ × Nat) → List (κ × Nat)), distributed dbg hull serial all wrap key fkey srt points p =
        localMesh dbg 2 p (own points p).length ((p :: nb).flatMap fun q => List.replicate (own points q).length q) (decide (1 < points.length)) key fkey srt { m with neighborDomains := nb } := by
  obtain ⟨m, e, hm⟩ := hr.wrap_ok p nb hp hnb
  rw [pts2_gensOf hr.even] at hm
  change GoodMesh m ((p :: nb).flatMap (own points)) Dom at hm
  have hm' : GoodMesh { m with neighborDomains := nb } ((p :: nb).flatMap (own points)) Dom := by
    obtain ⟨⟨⟨a1, a2, a3, a4, a5, a6, a7, a8⟩, b, c, d, f⟩, g, h, i, j⟩ := hm
    exact ⟨⟨⟨a1, a2, a3, a4, a5, a6, a7, a8⟩, b, c, fun i hi => loop_congr (m := m) (m' := { m with neighborDomains := nb }) rfl (d i hi), f⟩, g, h, i, j⟩
  have hlen : (pts2 (gensOf points (p :: nb))).length = (gensOf points (p :: nb)).length / 2 := pts2_length _
  rw [pts2_gensOf hr.even] at hlen
  have hol : ∀ ps : List Nat, (ps.flatMap fun q => List.replicate (own points q).length q).length = (ps.flatMap (own points)).length := by
    intro ps
    induction ps with
    | nil => rfl
    | cons a ps ih => rw [List.flatMap_cons, List.flatMap_cons, List.length_append, List.length_append, List.length_replicate, ih]
  refine ⟨m, e, hm', C66_after_C65 (num := fun q => (own points q).length) hm'.shows.consistent (fun F hF h0 => ?_) hm'.sn hm'.sf rfl hnd hself ?_, fun key fkey srt => ?_⟩
  · have := hm'.shows.segments F hF
    rw [h0] at this
    simp at this
  · rw [hm'.shows.cells_len, hol]
  · have hown : ∀ q, (points.getD q []).length / 2 = (own points q).length := fun q => (pts2_length _).symm
    unfold distributed
    rw [rd_lt hp, Res.ok_bind, hnb, Res.ok_bind]
    simp only [hown]
    rw [Res.assert_true, Res.ok_bind]
    · change (wrap (gensOf points (p :: nb)) >>= _) = _
      rw [e, Res.ok_bind]
      have : points[p].length / 2 = (own points p).length := by rw [own_eq hp, pts2_length]
      rw [this]
    · rw [hol]; exact hlen


omit [LinearOrder κ] [IsStrictOrderedRing K] in
theorem showsPart_congr {m : Tess K} {nd : List Nat} {sn sf : List (List Nat)} {S T : List (V2 K)} (h : ShowsPart { m with neighborDomains := nd, sharedNodes := sn, sharedFaces := sf } S T Dom) :
    ShowsPart m S T Dom := by
  obtain ⟨⟨a1, a2, a3, a4, a5, a6, a7, a8⟩, b, c, d, f, g, i⟩ := h
  exact ⟨⟨a1, a2, a3, a4, a5, a6, a7, a8⟩, b, c, fun i hi => loop_congr (m := { m with neighborDomains := nd, sharedNodes := sn, sharedFaces := sf }) (m' := m) rfl (d i hi), f, g, i⟩

omit [LinearOrder κ] in
/-- The only process keeps its mesh. -/
theorem local_single (dbg : Bool) {p nlocal : Nat} {g2d : List Nat} {m : Tess K} (h : Halo 2 p nlocal g2d m) (hnb : m.neighborDomains = []) (hpos : 0 < nlocal)
    (key : List K → κ) (fkey : Tess K → Nat → Res κ) (srt : List (κ × Nat) → List (κ × Nat)) :
    ∃ m' kn kf, localMesh dbg 2 p nlocal g2d false key fkey srt m = .ok m' ∧ Restricts 2 m kn kf (cellsBy g2d p) m' := by
  have hle : nlocal ≤ m.cells.length := by rw [h.cells]; exact h.le
  obtain ⟨m2, kn, kf, e2, hR, -, -, -⟩ := deleteCells_spec' dbg 2 m (List.replicate nlocal 1 ++ List.replicate (m.cells.length - nlocal) 0) h.consistent
    ⟨by rw [h.sn, h.sf], by rw [h.sn]; simp, by rw [h.sf]; simp⟩ (by simp; omega) (by
      intro k hk
      rcases List.mem_append.1 hk with hk | hk
      · exact Or.inr (List.eq_of_mem_replicate hk)
      · exact Or.inl (List.eq_of_mem_replicate hk)) (by
      intro _
      right
      exact List.mem_append_left _ (List.mem_replicate.2 ⟨by omega, rfl⟩))
  rw [keptCells_local, ← cellsBy_own h] at hR
  refine ⟨m2, kn, kf, ?_, hR⟩
  unfold localMesh
  simp only [Bool.false_eq_true, if_false, Res.bind_eq, Res.bind_ok]
  rw [if_neg (by omega), e2, Res.bind_ok]
  unfold dropEmpty
  rw [hR.neighborDomains, hnb]
  rfl

omit [LinearOrder κ] [Field K] [LinearOrder K] [IsStrictOrderedRing K] in
/-- The key of a face with these ends. -/
abbrev faceKeyOf (key : List K → κ) (mid : κ → κ → κ) (l : List (List K)) : κ := mid (key (l.getD 0 [])) (key (l.getD 1 []))

/-- What is left on a process. -/
theorem run_part (hr : Run dbg hull serial all wrap points Dom) {key : List K → κ} {mid : κ → κ → κ} {srt : List (κ × Nat) → List (κ × Nat)} (hs : Sorts srt) {p : Nat} {nb : List Nat}
    (hp : p < points.length) (hnb : neighborsFor dbg hull serial all points p = .ok nb) (hnd : nb.Nodup) (hself : p ∉ nb) :
    ∃ m', distributed dbg hull serial all wrap key (faceKey2 dbg key mid) srt points p = .ok m' ∧ ShowsPart m' (own points p) ((p :: nb).flatMap (own points)) Dom := by
  obtain ⟨m, _, hm, hH, hd⟩ := run_halo (κ := κ) hr hp hnb hnd hself
  have hpos : 0 < (own points p).length := List.length_pos_iff.2 (own_ne hr.toSetup hp)
  have hS : ∀ (i : Nat) P, (own points p)[i]? = some P → ((p :: nb).flatMap (own points))[i]? = some P := by
    intro i P hP
    rw [List.flatMap_cons, List.getElem?_append_left (List.getElem?_eq_some_iff.1 hP).1, hP]
  rw [hd key _ srt]
  by_cases h1 : 1 < points.length
  · rw [decide_eq_true h1]
    obtain ⟨m', e, hL⟩ := C66_lists dbg hH (key := key) (fk := faceKeyOf key mid) (C66_key2 dbg key mid hm.shows.consistent hm.shows.segments) hs fun _ => hpos
    exact ⟨m', e, showsPart_congr (restricts_part hm hL.part (cellsBy_own hH) hS)⟩
  · rw [decide_eq_false h1]
    have hnb0 : nb = [] := by
      unfold neighborsFor at hnb
      rw [if_neg h1] at hnb
      exact (Res.ok.inj hnb).symm
    obtain ⟨m', kn, kf, e, hR⟩ := local_single dbg hH hnb0 hpos key (faceKey2 dbg key mid) srt
    exact ⟨m', e, restricts_part hm hR (cellsBy_own hH) hS⟩

/-! ### C78 -/

/-- C78. Whatever the points, every process ends up with a mesh that has one cell for each of its points, in their order: the Voronoi cell among the points of its own and of its neighbours. -/
theorem C78_local (hr : Run dbg hull serial all wrap points Dom) (key : List K → κ) (mid : κ → κ → κ) {srt : List (κ × Nat) → List (κ × Nat)} (hs : Sorts srt) {p : Nat}
    (hp : p < points.length) : ∃ nb m, neighborsFor dbg hull serial all points p = .ok nb ∧ distributed dbg hull serial all wrap key (faceKey2 dbg key mid) srt points p = .ok m ∧
      ShowsPart m (own points p) ((p :: nb).flatMap (own points)) Dom := by
  obtain ⟨nb, h1, h2, _⟩ := run_neighbors hr
  obtain ⟨m, e, h⟩ := run_part hr (key := key) (mid := mid) hs hp (h1 p hp) (h2 p hp).1 (fun h => ((h2 p hp).2 p h).2.1 rfl)
  exact ⟨nb p, m, h1 p hp, e, h⟩

omit [LinearOrder κ] in
/-- With fair points, touching cells belong to neighbours. -/
theorem fair_touch (hr : Run dbg hull serial all wrap points Dom) (hf : Fair points Dom) {p q : Nat} {nb : List Nat} (hp : p < points.length)
    (hnb : neighborsFor dbg hull serial all points p = .ok nb) (hq : q < points.length) (hqp : q ≠ p) {g h x : V2 K} (hg : g ∈ own points p) (hh : h ∈ own points q) (hx : Dom x)
    (hgx : Closest (allPts points) g x) (hhx : Closest (allPts points) h x) : q ∈ nb := by
  obtain ⟨l, e, hl⟩ := C77_adjacent_partial hr.toSetup hp hq hqp hx hg hh hgx hhx (hf p q g h x hp hq (Ne.symm hqp) hg hh hx hgx hhx)
  unfold neighborsFor at hnb
  rw [if_pos (by omega), e] at hnb
  rwa [Res.ok.inj hnb] at hl

omit [LinearOrder κ] [IsStrictOrderedRing K] in
theorem showsPart_replace {m : Tess K} {S T T' : List (V2 K)} (h : ShowsPart m S T Dom) (he : ∀ g ∈ S, ∀ x, Dom x → (Closest T g x ↔ Closest T' g x)) : ShowsPart m S T' Dom := by
  obtain ⟨a, b, c, d, f, g, i⟩ := h
  refine ⟨a, b, c, d, fun i P hP => ?_, g, i⟩
  obtain ⟨A, h1, h2, h3⟩ := f i P hP
  exact ⟨A, h1, h2, fun x => (h3 x).trans (and_congr_right fun hx => he P (List.mem_of_getElem? hP) x hx)⟩

/-- C78. If hidden cells only touch hidden cells of other processes, every process ends up with a mesh that has one cell for each of its points, in their order: the Voronoi cell among the points of
all the processes. Missing is the case in which a hidden cell touches a cell that is not: the claim is wrong for it, see `C78_hidden_fails`. -/
theorem C78_cells_partial (hr : Run dbg hull serial all wrap points Dom) (hf : Fair points Dom) (key : List K → κ) (mid : κ → κ → κ) {srt : List (κ × Nat) → List (κ × Nat)} (hs : Sorts srt)
    {p : Nat} (hp : p < points.length) :
    ∃ m, distributed dbg hull serial all wrap key (faceKey2 dbg key mid) srt points p = .ok m ∧ ShowsPart m (own points p) (allPts points) Dom := by
  obtain ⟨nb, h1, h2, _⟩ := run_neighbors hr
  obtain ⟨m, e, h⟩ := run_part hr (key := key) (mid := mid) hs hp (h1 p hp) (h2 p hp).1 (fun h => ((h2 p hp).2 p h).2.1 rfl)
  refine ⟨m, e, showsPart_replace h fun g hg x hx => own_cell hr hp (fun q hq => ((h2 p hp).2 q hq).1) ?_ hg hx⟩
  intro q hq hqp g hg h hh x hx hgx hhx
  exact fair_touch hr hf hp (h1 p hp) hq hqp hg hh hx hgx hhx

omit [LinearOrder κ] in
/-- C78. Cells of two meshes that show the same Voronoi cell have the same faces: the same ends in the same direction. So the cells that the processes have in `C78_cells_partial` are those of a serial
tessellation of all the points. -/
theorem C78_serial {m M : Tess K} {S : List (V2 K)} {ps : List (V2 K)} (h : ShowsPart m ps S Dom) (hM : ShowsVoronoi M S Dom) {i j : Nat} {P : V2 K} (hi : ps[i]? = some P) (hj : S[j]? = some P) :
    ∀ e, e ∈ (cell m i).map (orientedCoords 2 m) ↔ e ∈ (cell M j).map (orientedCoords 2 M) := by
  obtain ⟨A, hA, cA, hx⟩ := h.shape i P hi
  obtain ⟨B, hB, cB, hy⟩ := hM.shape j P hj
  intro e
  unfold CellIs at cA cB
  rw [cA, cB, List.mem_map, List.mem_map]
  have : ∀ e : V2 K × V2 K, e ∈ dirSides A ↔ e ∈ dirSides B := by
    rintro ⟨u, v⟩
    rw [side_iff hA, side_iff hB]
    exact sideOf_congr fun x => (hx x).trans (hy x).symm
  simp only [this]

omit [LinearOrder κ] in
/-- C78. Together the cells of all the processes fill the domain. -/
theorem C78_cover (hs : Setup dbg hull serial all points Dom) (h0 : points ≠ []) {mesh : Nat → Tess K}
    (h : ∀ p, p < points.length → ShowsPart (mesh p) (own points p) (allPts points) Dom) {x : V2 K} (hx : Dom x) :
    ∃ p i A, p < points.length ∧ i < (mesh p).cells.length ∧ ConvexCCW A ∧ CellIs (mesh p) i A ∧ InPoly A x := by
  have hlen : 0 < points.length := List.length_pos_iff.2 h0
  obtain ⟨w, hw⟩ := List.exists_mem_of_ne_nil _ (own_ne hs hlen)
  obtain ⟨g, hg, hmin⟩ := exists_least (fun v => sq2 x v) (allPts points) (List.ne_nil_of_mem (own_sub hlen hw))
  obtain ⟨p, hp, hgp⟩ := mem_allPts.1 hg
  obtain ⟨i, hi, e⟩ := List.getElem_of_mem hgp
  obtain ⟨A, hA, cA, hin⟩ := (h p hp).shape i g (by rw [List.getElem?_eq_getElem hi, e])
  exact ⟨p, i, A, hp, by rw [(h p hp).cells_len]; exact hi, hA, cA, (hin x).2 ⟨hx, hg, hmin⟩⟩

omit [LinearOrder κ] in
/-- A little way from a point strictly inside a polygon, towards any other point, is still inside. -/
theorem strictly_near {A : List (V2 K)} {z : V2 K} (h : StrictlyIn A z) (w : V2 K) : ∃ t, 0 < t ∧ t ≤ 1 ∧ InPoly A (lerp2 z w t) := by
  have key : ∀ l : List (V2 K × V2 K), (∀ e ∈ l, 0 < area2 e.1 e.2 z) → ∃ t : K, 0 < t ∧ t ≤ 1 ∧ ∀ s, 0 ≤ s → s ≤ t → ∀ e ∈ l, 0 ≤ area2 e.1 e.2 (lerp2 z w s) := by
    intro l
    induction l with
    | nil => intro _; exact ⟨1, by norm_num, le_refl _, by simp⟩
    | cons e l ih =>
      intro hl
      obtain ⟨t, h0, h1, ht⟩ := ih fun e he => hl e (by simp [he])
      have hz := hl e (by simp)
      have hlin : ∀ s, area2 e.1 e.2 (lerp2 z w s) = (1 - s) * area2 e.1 e.2 z + s * area2 e.1 e.2 w := fun s => by simp only [area2, lerp2]; ring
      by_cases hw : 0 ≤ area2 e.1 e.2 w
      · refine ⟨t, h0, h1, fun s hs0 hs1 e' he' => ?_⟩
        rcases List.mem_cons.1 he' with rfl | he'
        · rw [hlin]
          have := mul_nonneg (by linarith : 0 ≤ 1 - s) hz.le
          have := mul_nonneg hs0 hw
          linarith
        · exact ht s hs0 hs1 e' he'
      · push Not at hw
        have hd : 0 < area2 e.1 e.2 z - area2 e.1 e.2 w := by linarith
        refine ⟨min t (area2 e.1 e.2 z / (area2 e.1 e.2 z - area2 e.1 e.2 w)), lt_min h0 (div_pos hz hd), le_trans (min_le_left _ _) h1, fun s hs0 hs1 e' he' => ?_⟩
        rcases List.mem_cons.1 he' with rfl | he'
        · have := le_trans hs1 (min_le_right _ _)
          rw [le_div_iff₀ hd] at this
          rw [hlin]
          linarith
        · exact ht s hs0 (le_trans hs1 (min_le_left _ _)) e' he'
  obtain ⟨t, h0, h1, ht⟩ := key (dirSides A) h
  exact ⟨t, h0, h1, ht t h0.le (le_refl t)⟩

omit [LinearOrder κ] [LinearOrder K] [IsStrictOrderedRing K] in
theorem cellIs_sides {m : Tess K} {i : Nat} {A B : List (V2 K)} (hA : CellIs m i A) (hB : CellIs m i B) : dirSides A = dirSides B := by
  unfold CellIs at hA hB
  rw [hA] at hB
  refine List.map_injective_iff.2 ?_ hB
  rintro ⟨u, v⟩ ⟨u', v'⟩ e
  simp only [List.cons.injEq, and_true] at e
  exact Prod.ext (V2.ext e.1.1 e.1.2) (V2.ext e.2.1 e.2.2)

omit [LinearOrder κ] in
/-- C78. Cells of different points do not overlap: a place strictly inside one of them is not in another, be it of the same process or of another one. -/
theorem C78_disjoint {m m' : Tess K} {ps ps' S : List (V2 K)} (h : ShowsPart m ps S Dom) (h' : ShowsPart m' ps' S Dom) {i j : Nat} {P Q : V2 K} (hi : ps[i]? = some P) (hj : ps'[j]? = some Q)
    (hPQ : P ≠ Q) {A B : List (V2 K)} (cA : CellIs m i A) (cB : CellIs m' j B) {z : V2 K} (hz : StrictlyIn A z) : ¬ InPoly B z := by
  obtain ⟨A', _, cA', hA⟩ := h.shape i P hi
  obtain ⟨B', _, cB', hB⟩ := h'.shape j Q hj
  unfold StrictlyIn at hz
  unfold InPoly
  rw [cellIs_sides cA cA'] at hz
  rw [cellIs_sides cB cB']
  intro hzB
  have hQ := ((hB z).1 hzB).2
  have hP := ((hA z).1 fun e he => (hz e he).le).2
  obtain ⟨t, h0, _, ht⟩ := strictly_near hz Q
  have h1 := ((hA _).1 ht).2.2 Q hQ.1
  have h2 := diff_lerp P Q z Q t
  have h3 := hP.2 Q hQ.1
  have h4 := hQ.2 P hP.1
  have h5 : sq2 Q Q = 0 := by unfold sq2; ring
  have h6 := mul_pos h0 (sq2_pos hPQ.symm)
  have h7 : sq2 z Q - sq2 z P = 0 := by linarith
  rw [h7, h5] at h2
  linarith

/-! ### Sharing -/

omit [LinearOrder κ] [IsStrictOrderedRing K] in
theorem owners_length (ps : List Nat) : (ps.flatMap (own points)).length = (ps.flatMap fun q => List.replicate (own points q).length q).length := by
  induction ps with
  | nil => rfl
  | cons a ps ih => rw [List.flatMap_cons, List.flatMap_cons, List.length_append, List.length_append, List.length_replicate, ih]

omit [LinearOrder κ] [LinearOrder K] [IsStrictOrderedRing K] in
/-- If `g` is nearest among all and `h` is as near as it among some, `h` is nearest among all. -/
theorem closest_lift [LinearOrder K] {S T : List (V2 K)} {g h x : V2 K} (hg : g ∈ S) (hh : h ∈ T) (hgx : Closest T g x) (hhx : Closest S h x) : Closest T h x :=
  ⟨hh, fun Q hQ => le_trans (hhx.2 g hg) (hgx.2 Q hQ)⟩

omit [LinearOrder κ] [IsStrictOrderedRing K] in
theorem own_disjoint (hnd : (allPts points).Nodup) {p q : Nat} (hp : p < points.length) (hq : q < points.length) (hpq : p ≠ q) {g : V2 K} (hg : g ∈ own points p) (hg' : g ∈ own points q) :
    False := by
  rw [own_eq hp] at hg
  rw [own_eq hq] at hg'
  have h := (List.nodup_flatMap.1 hnd).2
  rw [List.pairwise_iff_getElem] at h
  rcases Nat.lt_or_gt_of_ne hpq with h' | h'
  · exact h p q hp hq h' hg hg'
  · exact h q p hq hp h' hg' hg

/-- What the processes know in a run on fair points. -/
structure Known (points : List (List K)) (Dom : V2 K → Prop) (nb : Nat → List Nat) (halo : Nat → Tess K) : Prop where
  sub : ∀ p, p < points.length → ∀ q ∈ nb p, q < points.length
  self : ∀ p, p < points.length → p ∉ nb p
  touch : ∀ p q, p < points.length → q < points.length → q ≠ p → ∀ g ∈ own points p, ∀ h ∈ own points q, ∀ x, Dom x → Closest (allPts points) g x → Closest (allPts points) h x → q ∈ nb p
  own_cell : ∀ p, p < points.length → ∀ g ∈ own points p, ∀ x, Dom x → (Closest ((p :: nb p).flatMap (own points)) g x ↔ Closest (allPts points) g x)
  mesh : ∀ p, p < points.length → GoodMesh (halo p) ((p :: nb p).flatMap (own points)) Dom
  nbrs : ∀ p, p < points.length → (halo p).neighborDomains = nb p

/-- To which processes the cells of the mesh of a process belong. -/
abbrev ownersIn (points : List (List K)) (nb : Nat → List Nat) (p : Nat) : List Nat := (p :: nb p).flatMap fun q => List.replicate (own points q).length q

section
variable {nb : Nat → List Nat} {halo : Nat → Tess K} (kn : Known points Dom nb halo)
include kn

omit [LinearOrder κ] in
theorem Known.inCell {p : Nat} (hp : p < points.length) {g : V2 K} (hg : g ∈ own points p) : ∀ x, InCell ((p :: nb p).flatMap (own points)) Dom g x ↔ InCell (allPts points) Dom g x :=
  fun x => and_congr_right fun hx => kn.own_cell p hp g hg x hx

omit [LinearOrder κ] in
theorem Known.closest_sub {p : Nat} (hp : p < points.length) {q : Nat} (hq : q ∈ nb p) {h x : V2 K} (hh : h ∈ own points q) (hx : Closest (allPts points) h x) :
    Closest ((p :: nb p).flatMap (own points)) h x := by
  refine ⟨List.mem_flatMap.2 ⟨q, by simp [hq], hh⟩, fun Q hQ => hx.2 Q ?_⟩
  obtain ⟨r, hr, hQr⟩ := List.mem_flatMap.1 hQ
  rcases List.mem_cons.1 hr with e | hr
  · subst e; exact own_sub hp hQr
  · exact own_sub (kn.sub p hp r hr) hQr

omit [LinearOrder κ] in
theorem Known.node_own {p : Nat} (hp : p < points.length) {a : Nat} : NodeUsed (halo p) (cellsBy (ownersIn points nb p) p) a ↔
    a < numNodes 2 (halo p) ∧ ∃ g ∈ own points p, ∃ v, Extreme (InCell (allPts points) Dom g) v ∧ node 2 (halo p) a = coords v := by
  rw [nodeUsed_iff (kn.mesh p hp) (owners_length _)]
  refine and_congr_right fun _ => ⟨?_, ?_⟩
  · rintro ⟨c, P, v, h1, h2, h3, h4⟩
    obtain ⟨_, P', hP', e⟩ := owner_value h1
    rw [h2] at e
    cases e
    exact ⟨P, hP', v, (extreme_congr (kn.inCell hp hP')).1 h3, h4⟩
  · rintro ⟨g, hg, v, h3, h4⟩
    obtain ⟨c, h1, h2⟩ := value_owner (ps := p :: nb p) (f := own points) (by simp) hg
    exact ⟨c, g, v, h1, h2, (extreme_congr (kn.inCell hp hg)).2 h3, h4⟩

omit [LinearOrder κ] in
theorem Known.node_other {p q : Nat} (hp : p < points.length) (hq : q < points.length) (hqp : q ≠ p) {a : Nat} (ha : a < numNodes 2 (halo p)) {g v : V2 K} (hg : g ∈ own points p)
    (hv : Extreme (InCell (allPts points) Dom g) v) (hav : node 2 (halo p) a = coords v) :
    NodeUsed (halo p) (cellsBy (ownersIn points nb p) q) a ↔ ∃ h ∈ own points q, Closest (allPts points) h v := by
  rw [nodeUsed_iff (kn.mesh p hp) (owners_length _)]
  constructor
  · rintro ⟨_, c, P, v', h1, h2, h3, h4⟩
    obtain ⟨_, P', hP', e⟩ := owner_value h1
    rw [h2] at e
    cases e
    rw [hav] at h4
    cases coords_inj h4
    exact ⟨P, hP', closest_lift (List.mem_flatMap.2 ⟨p, by simp, hg⟩) (own_sub hq hP') hv.1.2 h3.1.2⟩
  · rintro ⟨h, hh, hc⟩
    have hqn := kn.touch p q hp hq hqp g hg h hh v hv.1.1 hv.1.2 hc
    obtain ⟨c, h1, h2⟩ := value_owner (ps := p :: nb p) (f := own points) (by simp [hqn]) hh
    exact ⟨ha, c, h, v, h1, h2, extreme_other ((extreme_congr (kn.inCell hp hg)).2 hv) (kn.closest_sub hp hqn hh hc), hav⟩

omit [LinearOrder κ] in
theorem Known.halosAgree {key : List K → κ} (hkey : ∀ g ∈ allPts points, ∀ h ∈ allPts points, ∀ u v, Extreme (InCell (allPts points) Dom g) u → Extreme (InCell (allPts points) Dom h) v →
    key (coords u) = key (coords v) → u = v) : HalosAgree 2 points.length (ownersIn points nb) halo key := by
  refine ⟨fun p hp q hq => ?_, ?_, ?_⟩
  · rw [kn.nbrs p hp] at hq; exact kn.sub p hp q hq
  · intro p hp a b ha hb e
    obtain ⟨ha', g, hg, u, hu, eu⟩ := (kn.node_own hp).1 ha
    obtain ⟨hb', h, hh, v, hv, ev⟩ := (kn.node_own hp).1 hb
    rw [eu, ev] at e
    exact (kn.mesh p hp).nodes a b ha' hb' (by rw [eu, ev, hkey g (own_sub hp hg) h (own_sub hp hh) u v hu hv e])
  · intro p q hp hq hpq a ha
    obtain ⟨ha', g, hg, u, hu, eu⟩ := (kn.node_own hp).1 ha
    rw [kn.node_other hp hq hpq.symm ha' hg hu eu]
    constructor
    · rintro ⟨b, hb, e⟩
      obtain ⟨hb', h, hh, v, hv, ev⟩ := (kn.node_own hq).1 hb
      rw [eu, ev] at e
      have := hkey h (own_sub hq hh) g (own_sub hp hg) v u hv hu e
      subst this
      exact ⟨h, hh, hv.1.2⟩
    · rintro ⟨h, hh, hc⟩
      have hx := extreme_other hu hc
      obtain ⟨c, h1, h2⟩ := value_owner (ps := q :: nb q) (f := own points) (by simp) hh
      obtain ⟨s, hs, b, hb, e⟩ := extreme_cell (kn.mesh q hq).shows h2 ((extreme_congr (kn.inCell hq hh)).2 hx)
      refine ⟨b, (kn.node_own hq).2 ⟨node_lt_of_cell (kn.mesh q hq).shows.consistent hs hb, h, hh, u, hx, e⟩, by rw [e, eu]⟩

omit [LinearOrder κ] in
theorem Known.face_own {p : Nat} (hp : p < points.length) {f : Nat} : FaceUsed (halo p) (cellsBy (ownersIn points nb p) p) f ↔
    f < (halo p).faces.length ∧ ∃ g ∈ own points p, ∃ u v, SideOf (InCell (allPts points) Dom g) u v ∧ HasEnds (halo p) f u v := by
  rw [faceUsed_iff (kn.mesh p hp) (owners_length _)]
  refine and_congr_right fun _ => ⟨?_, ?_⟩
  · rintro ⟨c, P, u, v, h1, h2, h3, h4⟩
    obtain ⟨_, P', hP', e⟩ := owner_value h1
    rw [h2] at e
    cases e
    exact ⟨P, hP', u, v, (sideOf_congr (kn.inCell hp hP')).1 h3, h4⟩
  · rintro ⟨g, hg, u, v, h3, h4⟩
    obtain ⟨c, h1, h2⟩ := value_owner (ps := p :: nb p) (f := own points) (by simp) hg
    exact ⟨c, g, u, v, h1, h2, (sideOf_congr (kn.inCell hp hg)).2 h3, h4⟩

omit [LinearOrder κ] in
theorem Known.face_other {p q : Nat} (hp : p < points.length) (hq : q < points.length) (hqp : q ≠ p) (hnd : (allPts points).Nodup) (hin : ∀ v ∈ allPts points, Dom v) {f : Nat}
    (hf : f < (halo p).faces.length) {g u v : V2 K} (hg : g ∈ own points p) (hv : SideOf (InCell (allPts points) Dom g) u v) (hfe : HasEnds (halo p) f u v) :
    FaceUsed (halo p) (cellsBy (ownersIn points nb p) q) f ↔ ∃ h ∈ own points q, Closest (allPts points) h u ∧ Closest (allPts points) h v := by
  rw [faceUsed_iff (kn.mesh p hp) (owners_length _)]
  have hgS : g ∈ (p :: nb p).flatMap (own points) := List.mem_flatMap.2 ⟨p, by simp, hg⟩
  constructor
  · rintro ⟨_, c, P, u', v', h1, h2, h3, h4⟩
    obtain ⟨_, P', hP', e⟩ := owner_value h1
    rw [h2] at e
    cases e
    have hu := hv.1.1.2
    have hv' := hv.2.1.1.2
    refine ⟨P, hP', ?_⟩
    rcases hfe.same h4 with ⟨rfl, rfl⟩ | ⟨rfl, rfl⟩
    · exact ⟨closest_lift hgS (own_sub hq hP') hu h3.1.1.2, closest_lift hgS (own_sub hq hP') hv' h3.2.1.1.2⟩
    · exact ⟨closest_lift hgS (own_sub hq hP') hu h3.2.1.1.2, closest_lift hgS (own_sub hq hP') hv' h3.1.1.2⟩
  · rintro ⟨h, hh, hc, hc'⟩
    have hqn := kn.touch p q hp hq hqp g hg h hh u hv.1.1.1 hv.1.1.2 hc
    obtain ⟨c, h1, h2⟩ := value_owner (ps := p :: nb p) (f := own points) (by simp [hqn]) hh
    have hne : g ≠ h := by
      rintro rfl
      exact own_disjoint hnd hp hq hqp.symm hg hh
    exact ⟨hf, c, h, v, u, h1, h2, sideOf_other hne (hin g (own_sub hp hg)) ((sideOf_congr (kn.inCell hp hg)).2 hv) (kn.closest_sub hp hqn hh hc) (kn.closest_sub hp hqn hh hc'), hfe.symm⟩

omit [LinearOrder κ] in
theorem Known.facesAgree (hnd : (allPts points).Nodup) (hin : ∀ v ∈ allPts points, Dom v) {key : List K → κ} {mid : κ → κ → κ} (hcomm : ∀ a b, mid a b = mid b a)
    (hmid : ∀ g ∈ allPts points, ∀ h ∈ allPts points, ∀ u v u' v', SideOf (InCell (allPts points) Dom g) u v → SideOf (InCell (allPts points) Dom h) u' v' →
      mid (key (coords u)) (key (coords v)) = mid (key (coords u')) (key (coords v')) → (u = u' ∧ v = v') ∨ (u = v' ∧ v = u')) :
    FacesAgree 2 points.length (ownersIn points nb) halo (faceKeyOf key mid) := by
  have hk : ∀ {m : Tess K} {f : Nat} {u v : V2 K}, HasEnds m f u v → faceKeyOf key mid (faceCoords 2 m f) = mid (key (coords u)) (key (coords v)) := by
    intro m f u v h
    rcases h with h | h
    · rw [h]; rfl
    · rw [h]; exact hcomm _ _
  refine ⟨?_, ?_⟩
  · intro p hp a b ha hb e
    obtain ⟨ha', g, hg, u, v, hu, eu⟩ := (kn.face_own hp).1 ha
    obtain ⟨hb', h, hh, u', v', hv, ev⟩ := (kn.face_own hp).1 hb
    rw [hk eu, hk ev] at e
    rcases hmid g (own_sub hp hg) h (own_sub hp hh) u v u' v' hu hv e with ⟨rfl, rfl⟩ | ⟨rfl, rfl⟩
    · exact ends_unique (kn.mesh p hp) ha' hb' eu ev
    · exact ends_unique (kn.mesh p hp) ha' hb' eu ev.symm
  · intro p q hp hq hpq a ha
    obtain ⟨ha', g, hg, u, v, hu, eu⟩ := (kn.face_own hp).1 ha
    rw [kn.face_other hp hq hpq.symm hnd hin ha' hg hu eu]
    constructor
    · rintro ⟨b, hb, e⟩
      obtain ⟨hb', h, hh, u', v', hv, ev⟩ := (kn.face_own hq).1 hb
      rw [hk eu, hk ev] at e
      refine ⟨h, hh, ?_⟩
      rcases hmid h (own_sub hq hh) g (own_sub hp hg) u' v' u v hv hu e with ⟨rfl, rfl⟩ | ⟨rfl, rfl⟩
      · exact ⟨hv.1.1.2, hv.2.1.1.2⟩
      · exact ⟨hv.2.1.1.2, hv.1.1.2⟩
    · rintro ⟨h, hh, hc, hc'⟩
      have hne : g ≠ h := by
        rintro rfl
        exact own_disjoint hnd hp hq hpq hg hh
      have hx := sideOf_other hne (hin g (own_sub hp hg)) hu hc hc'
      obtain ⟨c, h1, h2⟩ := value_owner (ps := q :: nb q) (f := own points) (by simp) hh
      obtain ⟨s, hs, e⟩ := side_face (kn.mesh q hq).shows h2 ((sideOf_congr (kn.inCell hq hh)).2 hx)
      refine ⟨posID s, (kn.face_own hq).2 ⟨face_lt_of_cell (kn.mesh q hq).shows.consistent hs, h, hh, v, u, hx, e⟩, ?_⟩
      rw [hk e.symm, hk eu]

/-- A corner of a cell of process `p` that is in the cell of a point of another process. -/
theorem Known.exists_shared (hin : ∀ v ∈ allPts points, Dom v) (hconv : ∀ u v t, Dom u → Dom v → 0 ≤ t → t ≤ 1 → Dom (lerp2 u v t)) {p : Nat} (hp : p < points.length)
    (hne : ∀ q, q < points.length → own points q ≠ []) (h2 : 1 < points.length) :
    ∃ q, q ≠ p ∧ q < points.length ∧ ∃ a, NodeUsed (halo p) (cellsBy (ownersIn points nb p) p) a ∧ NodeUsed (halo p) (cellsBy (ownersIn points nb p) q) a := by
  obtain ⟨r, hr, hrp⟩ : ∃ r, r < points.length ∧ r ≠ p := by
    by_cases h : p = 0
    · exact ⟨1, by omega, by omega⟩
    · exact ⟨0, by omega, by omega⟩
  obtain ⟨u, hu⟩ := List.exists_mem_of_ne_nil _ (hne p hp)
  obtain ⟨w, hw⟩ := List.exists_mem_of_ne_nil _ (hne r hr)
  let rest := ((List.range points.length).filter (· ≠ p)).flatMap (own points)
  have hwr : w ∈ rest := List.mem_flatMap.2 ⟨r, by simp [hr, hrp], hw⟩
  obtain ⟨g, hg, h, hh, cg, ch⟩ := exists_between hu hwr
  obtain ⟨q, hq, hhq⟩ := List.mem_flatMap.1 hh
  have hq' : q < points.length ∧ q ≠ p := by simpa using hq
  have hsub : ∀ v ∈ allPts points, v ∈ own points p ++ rest := by
    intro v hv
    obtain ⟨k, hk, hvk⟩ := mem_allPts.1 hv
    by_cases hkp : k = p
    · subst hkp; exact List.mem_append_left _ hvk
    · exact List.mem_append_right _ (List.mem_flatMap.2 ⟨k, by simp [hk, hkp], hvk⟩)
  have hga := own_sub hp hg
  have hha := own_sub hq'.1 hhq
  have cg' : Closest (allPts points) g (lerp2 g h (1 / 2)) := ⟨hga, fun v hv => cg.2 v (hsub v hv)⟩
  have ch' : Closest (allPts points) h (lerp2 g h (1 / 2)) := ⟨hha, fun v hv => ch.2 v (hsub v hv)⟩
  have hd := hconv g h (1 / 2) (hin g hga) (hin h hha) (by norm_num) (by norm_num)
  -- a corner of the cell of `g` at which `h` is as near
  obtain ⟨c, h1, h2⟩ := value_owner (ps := p :: nb p) (f := own points) (by simp) hg
  obtain ⟨A, hA, hcA, hx⟩ := (kn.mesh p hp).shows.shape c g h2
  have hx' : ∀ x, InPoly A x ↔ InCell (allPts points) Dom g x := fun x => (hx x).trans (kn.inCell hp hg x)
  obtain ⟨v, hv, hv0⟩ : ∃ v ∈ A, sq2 v h ≤ sq2 v g := by
    by_contra hn
    push Not at hn
    have key : ∀ x, Hull2 A x → sq2 x g < sq2 x h := by
      intro x hx
      induction hx with
      | pt hm => exact hn _ hm
      | @seg a b t _ _ h0 h1 ih1 ih2 =>
        have := diff_lerp g h a b t
        have e1 := mul_nonneg (sub_nonneg.2 h1) (sub_pos.2 ih1).le
        have e2 := mul_nonneg h0 (sub_pos.2 ih2).le
        rcases h0.lt_or_eq with h0 | h0
        · have := mul_pos h0 (sub_pos.2 ih2)
          linarith
        · subst h0
          linarith
    have := key _ ((inPoly_hull hA).1 ((hx' _).2 ⟨hd, cg'⟩))
    exact absurd (ch'.2 g hga) (not_le.2 this)
  have hvx := (extreme_congr hx').1 ((extreme_corner hA).2 hv)
  have hvh : Closest (allPts points) h v := ⟨hha, fun Q hQ => le_trans hv0 (hvx.1.2.2 Q hQ)⟩
  obtain ⟨s, hs, a, ha, e⟩ := extreme_cell (kn.mesh p hp).shows h2 ((extreme_congr (kn.inCell hp hg)).2 hvx)
  have hal := node_lt_of_cell (kn.mesh p hp).shows.consistent hs ha
  exact ⟨q, hq'.2, hq'.1, a, (kn.node_own hp).2 ⟨hal, g, hg, v, hvx, e⟩, (kn.node_other hp hq'.1 hq'.2 hal hg hvx e).2 ⟨h, hhq, hvh⟩⟩
end

omit [LinearOrder κ] in
theorem run_known (hr : Run dbg hull serial all wrap points Dom) (hf : Fair points Dom) : ∃ (nb : Nat → List Nat) (m : Nat → Tess K), Known points Dom nb (fun p => { m p with neighborDomains := nb p }) ∧
    ∀ p, p < points.length → neighborsFor dbg hull serial all points p = .ok (nb p) ∧ wrap (gensOf points (p :: nb p)) = .ok (m p) ∧
      Halo 2 p (own points p).length (ownersIn points nb p) { m p with neighborDomains := nb p } ∧
      ∀ (key : List K → κ) (fkey : Tess K → Nat → Res κ) (srt : List (κ × Nat) → List (κ × Nat)), distributed dbg hull serial all wrap key fkey srt points p =
        localMesh dbg 2 p (own points p).length (ownersIn points nb p) (decide (1 < points.length)) key fkey srt { m p with neighborDomains := nb p } := by
  obtain ⟨nb, h1, h2, _⟩ := run_neighbors hr
  have hself : ∀ p, p < points.length → p ∉ nb p := fun p hp h => ((h2 p hp).2 p h).2.1 rfl
  have : Nonempty (Tess K) := ⟨{}⟩
  choose! m e1 e2 e3 e4 using fun p (hp : p < points.length) => run_halo (κ := κ) hr hp (h1 p hp) (h2 p hp).1 (hself p hp)
  have htouch : ∀ p q, p < points.length → q < points.length → q ≠ p → ∀ g ∈ own points p, ∀ h ∈ own points q, ∀ x, Dom x → Closest (allPts points) g x → Closest (allPts points) h x →
      q ∈ nb p := fun p q hp hq hqp g hg h hh x hx hgx hhx => fair_touch hr hf hp (h1 p hp) hq hqp hg hh hx hgx hhx
  exact ⟨nb, m, ⟨fun p hp q hq => ((h2 p hp).2 q hq).1, hself, htouch, fun p hp g hg x hx => own_cell hr hp (fun q hq => ((h2 p hp).2 q hq).1) (fun q hq hqp => htouch p q hp hq hqp) hg hx,
    e2, fun _ _ => rfl⟩, fun p hp => ⟨h1 p hp, e1 p hp, e3 p hp, e4 p hp⟩⟩

omit [Field K] [LinearOrder K] [IsStrictOrderedRing K] [LinearOrder κ] in
/-- Another name for the nodes. -/
theorem sharing_rename {γ : Type} {D n : Nat} {mesh : Nat → Tess K} {gid : Nat → Nat → κ} {gid' : Nat → Nat → γ} (h : Sharing D n mesh gid)
    (he : ∀ p q, p < n → q < n → ∀ a b, a < numNodes D (mesh p) → b < numNodes D (mesh q) → (gid p a = gid q b ↔ gid' p a = gid' q b)) : Sharing D n mesh gid' := by
  refine ⟨h.dim, h.lt, h.nodup, h.sym, h.len, h.nodes, fun p hp a b ha hb e => h.inj p hp a b ha hb ((he p p hp hp a b ha hb).2 e), ?_,
    fun p q hp hq hpq a b ha hb e => h.complete p q hp hq hpq a b ha hb ((he p q hp hq a b ha hb).2 e), h.small⟩
  intro p hp i q j hi hj
  have hq := (h.lt p hp q (List.mem_of_getElem? hi)).1
  have key := h.agree p hp i q j hi hj
  have lt1 : ∀ a ∈ (mesh p).sharedNodes.getD i [], a < numNodes D (mesh p) := by
    intro a ha
    exact h.nodes p hp _ (getD_mem_list (by rw [h.len p hp]; exact (List.getElem?_eq_some_iff.1 hi).1) []) a ha
  have lt2 : ∀ a ∈ (mesh q).sharedNodes.getD j [], a < numNodes D (mesh q) := by
    intro a ha
    exact h.nodes q hq _ (getD_mem_list (by rw [h.len q hq]; exact (List.getElem?_eq_some_iff.1 hj).1) []) a ha
  generalize (mesh p).sharedNodes.getD i [] = l at key lt1
  generalize (mesh q).sharedNodes.getD j [] = l' at key lt2
  induction l generalizing l' with
  | nil => cases l' with
    | nil => rfl
    | cons b l' => simp at key
  | cons a l ih => cases l' with
    | nil => simp at key
    | cons b l' =>
      rw [List.map_cons, List.map_cons, List.cons.injEq] at key ⊢
      exact ⟨(he p q hp hq a b (lt1 a (by simp)) (lt2 b (by simp))).1 key.1, ih (fun a ha => lt1 a (by simp [ha])) l' key.2 fun a ha => lt2 a (by simp [ha])⟩

/-- C78. With more than one process and keys that tell the corners of cells apart, the meshes of the processes fit together: neighbours list the same nodes, by position, for each other in the same
order, every node that two processes have is in their lists, and every process has a neighbour. If the keys of faces tell the sides of cells apart, neighbours list the same faces for each other in the
same order. Missing is what is missing from `C78_cells_partial`. -/
theorem C78_sharing_partial (hr : Run dbg hull serial all wrap points Dom) (hf : Fair points Dom) (h2 : 1 < points.length) {key : List K → κ} {mid : κ → κ → κ}
    (hkey : ∀ g ∈ allPts points, ∀ h ∈ allPts points, ∀ u v, Extreme (InCell (allPts points) Dom g) u → Extreme (InCell (allPts points) Dom h) v → key (coords u) = key (coords v) → u = v)
    {srt : Nat → List (κ × Nat) → List (κ × Nat)} (hs : ∀ p, p < points.length → Sorts (srt p))
    (hsm : ∀ p nb m, p < points.length → neighborsFor dbg hull serial all points p = .ok nb → wrap (gensOf points (p :: nb)) = .ok m → 2 * numNodes 2 m < 2 ^ 31) :
    ∃ mesh : Nat → Tess K, (∀ p, p < points.length → distributed dbg hull serial all wrap key (faceKey2 dbg key mid) (srt p) points p = .ok (mesh p) ∧ (mesh p).neighborDomains ≠ []) ∧
      Sharing 2 points.length mesh (fun p a => node 2 (mesh p) a) ∧
      ((∀ a b, mid a b = mid b a) →
        (∀ g ∈ allPts points, ∀ h ∈ allPts points, ∀ u v u' v', SideOf (InCell (allPts points) Dom g) u v → SideOf (InCell (allPts points) Dom h) u' v' →
          mid (key (coords u)) (key (coords v)) = mid (key (coords u')) (key (coords v')) → (u = u' ∧ v = v') ∨ (u = v' ∧ v = u')) →
        ∀ p q i j, p < points.length → (mesh p).neighborDomains[i]? = some q → (mesh q).neighborDomains[j]? = some p →
          ((mesh p).sharedFaces.getD i []).map (fun f => faceKeyOf key mid (faceCoords 2 (mesh p) f)) = ((mesh q).sharedFaces.getD j []).map fun f => faceKeyOf key mid (faceCoords 2 (mesh q) f)) := by
  obtain ⟨nb, m, kn, h⟩ := run_known (κ := κ) hr hf
  have hpos : ∀ p, p < points.length → 0 < (own points p).length := fun p hp => List.length_pos_iff.2 (own_ne hr.toSetup hp)
  have hA := kn.halosAgree hkey
  have hk := fun p hp => C66_key2 dbg key mid (kn.mesh p hp).shows.consistent (kn.mesh p hp).shows.segments
  have hH := fun p hp => (h p hp).2.2.1
  have hsm' : ∀ p, p < points.length → 2 * numNodes 2 { m p with neighborDomains := nb p } < 2 ^ 31 := fun p hp => hsm p _ (m p) hp (h p hp).1 (h p hp).2.1
  have : Nonempty (Tess K) := ⟨{}⟩
  choose! mesh h3 h4 using fun p (hp : p < points.length) => C66_lists dbg (hH p hp) (key := key) (fk := faceKeyOf key mid) (hk p hp) (hs p hp) fun _ => hpos p hp
  have hS := sharing_of_parts hH hA hsm' h4 (by omega)
  refine ⟨mesh, fun p hp => ⟨?_, ?_⟩, ?_, ?_⟩
  · rw [(h p hp).2.2.2, decide_eq_true h2]; exact h3 p hp
  · obtain ⟨q, hqp, hq, a, ha, ha'⟩ := kn.exists_shared hr.inside hr.convex hp (fun q hq => own_ne hr.toSetup hq) h2
    rw [(h4 p hp).nbrs]
    refine List.ne_nil_of_mem (a := q) (List.mem_filter.2 ⟨?_, ?_⟩)
    · obtain ⟨c, hcm, -⟩ := ha'
      exact ((hH p hp).nbr q (List.mem_of_getElem? (mem_cellsBy.1 hcm))).resolve_left hqp
    · refine decide_eq_true (List.ne_nil_of_mem (a := a) ?_)
      simp only [Par.nodesBetween, List.mem_filter, List.mem_range, decide_eq_true_eq]
      exact ⟨((kn.node_own hp).1 ha).1, ha, ha'⟩
  · refine sharing_rename hS fun p q hp hq a b ha hb => ⟨fun e => ?_, fun e => by rw [e]⟩
    have hpos : ∀ p, p < points.length → ∀ a, a < numNodes 2 (mesh p) → ∃ g ∈ own points p, ∃ v, Extreme (InCell (allPts points) Dom g) v ∧ node 2 (mesh p) a = coords v := by
      intro p hp a ha
      rw [(h4 p hp).node (kn.mesh p hp).shows.consistent ha]
      rw [(h4 p hp).numNodes (kn.mesh p hp).shows.consistent] at ha
      have := (mem_nodesOf (kn.mesh p hp).shows.consistent (hH p hp).cells).1 (old_mem ha)
      exact ((kn.node_own hp).1 this).2
    obtain ⟨g, hg, u, hu, eu⟩ := hpos p hp a ha
    obtain ⟨g', hg', v, hv, ev⟩ := hpos q hq b hb
    rw [eu, ev] at e ⊢
    rw [hkey g (own_sub hp hg) g' (own_sub hq hg') u v hu hv e]
  · intro hcomm hmid p q i j hp hi hj
    exact C66_faces dbg hH hA (kn.facesAgree hr.distinct hr.inside hcomm hmid) hk hs (fun _ => hpos) h3 hp hi hj

open Mpi in
/-- C78. The exchange of the coordinates of shared nodes that follows (C48) comes to its end on every process, in whatever order the processes go on, and as the arithmetic is exact here, it leaves the
meshes as they are. -/
theorem C78_exchange_partial (hr : Run dbg hull serial all wrap points Dom) (hf : Fair points Dom) (h2 : 1 < points.length) {key : List K → κ} (mid : κ → κ → κ)
    (hkey : ∀ g ∈ allPts points, ∀ h ∈ allPts points, ∀ u v, Extreme (InCell (allPts points) Dom g) u → Extreme (InCell (allPts points) Dom h) v → key (coords u) = key (coords v) → u = v)
    {srt : Nat → List (κ × Nat) → List (κ × Nat)} (hs : ∀ p, p < points.length → Sorts (srt p))
    (hsm : ∀ p nb m, p < points.length → neighborsFor dbg hull serial all points p = .ok nb → wrap (gensOf points (p :: nb)) = .ok m → 2 * numNodes 2 m < 2 ^ 31) (zero : K) :
    ∃ mesh : Nat → Tess K, (∀ p, p < points.length → distributed dbg hull serial all wrap key (faceKey2 dbg key mid) (srt p) points p = .ok (mesh p)) ∧
      ∀ (k : Nat) (y : Sys (NodeState K) K), Reach (nodeProg dbg 2 zero mesh) points.length k y →
        (∀ p r, p < points.length → step (nodeProg dbg 2 zero mesh) points.length p y = some r → ∃ y', r = .ok y') ∧
        ((∀ p, p < points.length → ∃ s, y.proc p = .done s) ∨ ∃ p y', p < points.length ∧ step (nodeProg dbg 2 zero mesh) points.length p y = some (.ok y')) ∧
        k ≤ ∑ p ∈ Finset.range points.length, (2 * (mesh p).neighborDomains.length + 3) ∧
        ∀ p s, p < points.length → y.proc p = .done s → s.nodes.length = (mesh p).nodes.length ∧
          ∀ a, a < numNodes 2 (mesh p) → node 2 { mesh p with nodes := s.nodes } a = node 2 (mesh p) a := by
  obtain ⟨mesh, h1, hS, _⟩ := C78_sharing_partial hr hf h2 (mid := mid) hkey hs hsm
  refine ⟨mesh, fun p hp => (h1 p hp).1, fun k y hy => ?_⟩
  obtain ⟨e1, e2, e3, e4⟩ := C48_exchange_partial dbg zero hS (fun p hp => (h1 p hp).2) hy
  refine ⟨e1, e2, e3, fun p s hp hps => ⟨(e4 p s hp hps).1, fun a ha => ?_⟩⟩
  obtain ⟨⟨hl, c, hc, hcg⟩, hle⟩ := least_spec (gid := fun p a => node 2 (mesh p) a) hp ha
  rw [(e4 p s hp hps).2 a _ c ha hl hc hcg fun r c hr hc hcg => hle r ⟨hr, c, hc, hcg⟩]
  exact hcg
end
end
end Verif.Nbr
