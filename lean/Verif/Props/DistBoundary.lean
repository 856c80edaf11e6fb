import Verif.Proofs.DistBoundary
import Verif.Props.DistributedEx
/- C101: the boundary of a distributed tessellation. -/
namespace Verif.Nbr
open Verif Verif.Mesh Verif.Geom Verif.Internal Verif.Exch

/-- C101. The copy of a PLC that is made for the search of neighbours, in any dimension: its facets are at the same places, it has as many points as the facets name, each of them is named by a facet,
and it has no holes. -/
theorem C101_copy {K : Type} {d : Nat} (hd : 0 < d) {pts : List K} {g : PLC} (h : ∀ f ∈ g.facets, ∀ i ∈ f, IsPoint d pts i) :
    ∃ p' g', visPLC d pts g = .ok (p', g') ∧ (Bounds.plc p' g').Valid d ∧ (Bounds.plc p' g').region d = ((Bounds.plc pts g).region d).filled ∧
      p'.length = d * g.facets.flatten.dedup.length ∧ ∀ n : Nat, d * n + d ≤ p'.length ↔ (n : Int) ∈ g'.facets.flatten := by
  obtain ⟨M, gs, e, h1, -, h3, h4, h5⟩ := visPLCFacets_eq g.facets h [] [] numbers_nil (by simp)
  rw [List.nil_append] at h1
  have hkM : ∀ p ∈ M, IsPoint d pts p.1 := by
    intro p hp
    obtain ⟨f, hf, hif⟩ := List.mem_flatten.1 ((h1.keys p.1).1 (List.mem_map.2 ⟨p, hp, rfl⟩))
    exact h f hf _ hif
  have hlen := blocks_length hkM
  have hused : ∀ n : Nat, d * n + d ≤ (blocks d pts M).length ↔ (n : Int) ∈ gs.flatten := by
    intro n
    rw [h4, hlen, show d * n + d = d * (n + 1) from rfl, Nat.mul_le_mul_left_iff hd]
    constructor
    · intro hn
      have hn' : n < M.length := hn
      refine ⟨M[n].1, (h1.keys _).1 (List.mem_map.2 ⟨_, List.getElem_mem hn', rfl⟩), ?_⟩
      have : (M.map Prod.snd)[n]? = some n := by rw [h1.ids]; simp [hn']
      have : M[n].2 = n := by simpa [hn'] using this
      have hm := List.getElem_mem hn'
      rwa [← Prod.eta M[n], this] at hm
    · rintro ⟨k, -, hk⟩
      have : n ∈ M.map Prod.snd := List.mem_map.2 ⟨_, hk, rfl⟩
      rw [h1.ids] at this
      simpa using this
  refine ⟨blocks d pts M, { facets := gs }, ?_, ⟨?_, by simp⟩, ?_, ?_, hused⟩
  · unfold visPLC
    have : (([], []) : KMap Int × List K) = ([], blocks d pts []) := rfl
    rw [this, e]; rfl
  · intro f hf i hi
    have h0 := h5 f hf i hi
    refine ⟨h0, (hused i.toNat).2 ?_⟩
    rw [Int.toNat_of_nonneg h0]
    exact List.mem_flatten.2 ⟨f, hf, hi⟩
  · simp only [Bounds.region, Region.filled]
    rw [h3]; rfl
  · rw [hlen, h1.length_eq]

section
variable {K κ : Type} [Field K] [LinearOrder K]

/-- C101. A call does what it would do on a new object, whatever calls there were before. -/
theorem C101_history (dbg : Bool) (hull : List K → Res (RPLC K)) (s : Serial K) (key : List K → κ) (fkey : Tess K → Nat → Res κ) (srt : List (κ × Nat) → List (κ × Nat))
    (hist : List (Bounds K)) (b : Bounds K) (points : List (List K)) (rank : Nat) :
    (DistObj.call dbg hull s key fkey srt (DistObj.after {} hist) b points rank).2 = (DistObj.call dbg hull s key fkey srt {} b points rank).2 := by
  generalize DistObj.after ({} : DistObj K) hist = o
  have h1 : tessWrapper dbg s (o.enter b) = tessWrapper dbg s (DistObj.enter {} b) := by cases b <;> rfl
  have h2 : visTessellate 2 s (o.enter b) = visTessellate 2 s (DistObj.enter {} b) := by cases b <;> rfl
  simp only [DistObj.call, h1, h2]

/-- C101. After any history, the generators of a process and its neighbours are tessellated as if the caller had passed the same arguments to the serial tessellator, and the visible points of all
processes as if the caller had passed arguments that ask for the same region, but with its holes filled. -/
theorem C101_boundary (dbg : Bool) (s : Serial K) (hist : List (Bounds K)) {b : Bounds K} (hb : b.Valid 2) :
    ∃ b' : Bounds K, b'.Valid 2 ∧ b'.region 2 = (b.region 2).filled ∧
      ∀ (hull : List K → Res (RPLC K)) (key : List K → κ) (fkey : Tess K → Nat → Res κ) (srt : List (κ × Nat) → List (κ × Nat)) (points : List (List K)) (rank : Nat),
        (DistObj.call dbg hull s key fkey srt (DistObj.after {} hist) b points rank).2 = distributed dbg hull s.free (s.tess b') (s.tess b) key fkey srt points rank := by
  generalize DistObj.after ({} : DistObj K) hist = o
  cases b with
  | unbounded => exact ⟨.unbounded, trivial, rfl, fun _ _ _ _ _ _ => rfl⟩
  | box low high =>
    refine ⟨.box low high, trivial, rfl, fun hull key fkey srt points rank => ?_⟩
    have h1 : tessWrapper dbg s (o.enter (.box low high)) = s.tess (.box low high) := by
      funext l; cases dbg <;> rfl
    simp only [DistObj.call, h1]; rfl
  | plc pts g =>
    obtain ⟨p', g', e, h1, h2, -⟩ := C101_copy (by decide : 0 < 2) hb.1
    refine ⟨.plc p' g', h1, h2, fun hull key fkey srt points rank => ?_⟩
    have h1 : tessWrapper dbg s (o.enter (.plc pts g)) = s.tess (.plc pts g) := by
      funext l; cases dbg <;> rfl
    have h2 : visTessellate 2 s (o.enter (.plc pts g)) = s.tess (.plc p' g') := by
      funext l
      simp only [visTessellate, DistObj.enter, deref, Res.ok_bind, e, Serial.tess]
    simp only [DistObj.call, h1, h2]
  | reduced g =>
    obtain ⟨p', g', e, h1, h2, -⟩ := C101_copy (by decide : 0 < 2) (g := ⟨g.facets, g.holes⟩) hb.1
    refine ⟨.plc p' g', h1, h2, fun hull key fkey srt points rank => ?_⟩
    have h1 : tessWrapper dbg s (o.enter (.reduced g)) = s.tess (.reduced g) := by
      funext l; cases dbg <;> rfl
    have h2 : visTessellate 2 s (o.enter (.reduced g)) = s.tess (.plc p' g') := by
      funext l
      simp only [visTessellate, DistObj.enter, deref, Res.ok_bind, e, Serial.tess]
    simp only [DistObj.call, h1, h2]

/-- C101. The holes of the boundary have no influence on which processes exchange generators. -/
theorem C101_holes_fails (dbg : Bool) (hull : List K → Res (RPLC K)) (s : Serial K) (o : DistObj K) (pts : List K) (g : PLC) (points : List (List K)) (rank : Nat) :
    neighborsFor dbg hull s.free (visTessellate 2 s (o.enter (.plc pts g))) points rank =
      neighborsFor dbg hull s.free (visTessellate 2 s (o.enter (.plc pts { g with holes := [] }))) points rank := rfl
end

section
variable {K κ : Type} [Field K] [LinearOrder K] [IsStrictOrderedRing K] [LinearOrder κ]

/-- The hypotheses of `C78_cells_partial`, for a call with a region without holes. -/
theorem reliable_run {dbg : Bool} {hull : List K → Res (RPLC K)} {s : Serial K} {b b' : Bounds K} {points : List (List K)} {Dom : V2 K → Prop} (h0' : points ≠ []) (few : points.length < 2 ^ 31)
    (even : ∀ l ∈ points, l.length % 2 = 0) (some : ∀ l ∈ points, l ≠ []) (distinct : (allPts points).Nodup) (hull_ok : ∀ l ∈ points, ∃ h, hull l = .ok h ∧ HullOf h (pts2 l))
    (inside : ∀ v ∈ allPts points, Dom v) (convex : ∀ u v t, Dom u → Dom v → 0 ≤ t → t ≤ 1 → Dom (lerp2 u v t)) (hb : b.Valid 2) (hb' : b'.Valid 2) (hr : b'.region 2 = b.region 2)
    (hs : Reliable s points (b.region 2) Dom) : Run dbg hull s.free (s.tess b') (s.tess b) points Dom := by
  have hS : Setup dbg hull s.free (s.tess b') points Dom := by
    refine ⟨few, even, some, distinct, hull_ok, hs.free, fun hulls e => ?_⟩
    obtain ⟨hulls', e', hl, hv⟩ := mapM_exists (P := fun l h => VisibleOf h l) points (g := visibleHull dbg hull s.free) (by
      intro l hlm
      obtain ⟨h, eh, hh⟩ := hull_ok l hlm
      obtain ⟨m, em, hm⟩ := hs.free l hlm
      refine visibleHull_spec dbg (even l hlm) (some l hlm) ?_ eh hh em (fun hn => hm ?_)
      · exact (List.nodup_flatMap.1 distinct).1 l hlm
      · cases hh with
        | polygon B hB _ _ hsub _ => exact polygon_noncol hB hsub
        | flat i j hf => exact absurd (by rw [hf]; rfl) hn)
    rw [e] at e'
    have := Res.ok.inj e'
    subst this
    have hev : ∀ x ∈ hulls, x.points.length % 2 = 0 := by
      intro x hx
      obtain ⟨i, hi, rfl⟩ := List.mem_iff_getElem.1 hx
      exact (hv i _ _ (List.getElem?_eq_getElem (by omega)) (List.getElem?_eq_getElem hi)).good.even
    have hdis := List.pairwise_iff_getElem.1 (List.nodup_flatMap.1 distinct).2
    have hvis : ∀ i (hi : i < hulls.length), VisibleOf hulls[i] (points[i]'(hl ▸ hi)) := fun i hi =>
      hv i _ _ (List.getElem?_eq_getElem (by omega)) (List.getElem?_eq_getElem hi)
    have hel : (hulls.flatMap (·.points)).length % 2 = 0 := by
      clear e e' hl hv hvis
      induction hulls with
      | nil => rfl
      | cons a t ih =>
        have h1 := ih fun x hx => hev x (by simp [hx])
        have h2 := hev a (by simp)
        rw [List.flatMap_cons, List.length_append]; omega
    suffices h : ∃ m, s.tess b' (hulls.flatMap (·.points)) = .ok m ∧ GoodMesh m (pts2 (hulls.flatMap (·.points))) Dom by
      obtain ⟨m, em, hm⟩ := h
      refine ⟨m, em, hm.shows.consistent, ?_, goodMesh_adjacent hm⟩
      rw [hm.shows.cells_len, pts2_length]
    refine hs.bounded b' _ hb' hr hel ?_ ?_ ?_
    · intro h0
      have hpos : 0 < hulls.length := by rw [hl]; exact List.length_pos_iff.2 h0'
      have := (hvis 0 hpos).good.some
      rw [List.flatMap_eq_nil_iff] at h0
      rw [h0 _ (List.getElem_mem hpos)] at this
      simp at this
    · rw [pts2_flatMap hev, List.nodup_flatMap]
      refine ⟨fun x hx => ?_, List.pairwise_iff_getElem.2 fun i j hi hj hij => ?_⟩
      · obtain ⟨i, hi, rfl⟩ := List.mem_iff_getElem.1 hx
        exact (hvis i hi).nodup
      · intro v h1 h2
        exact hdis i j (by omega) (by omega) hij ((hvis i hi).sub v h1) ((hvis j hj).sub v h2)
    · intro v hv'
      rw [pts2_flatMap hev] at hv'
      obtain ⟨x, hx, hvx⟩ := List.mem_flatMap.1 hv'
      obtain ⟨i, hi, rfl⟩ := List.mem_iff_getElem.1 hx
      exact List.mem_flatMap.2 ⟨points[i]'(hl ▸ hi), List.getElem_mem _, (hvis i hi).sub v hvx⟩
  refine ⟨hS, inside, convex, fun p nb hp hnb => ?_⟩
  have hnb' : nb.Nodup ∧ ∀ q ∈ nb, q < points.length ∧ q ≠ p := by
    unfold neighborsFor at hnb
    by_cases h1 : 1 < points.length
    · rw [if_pos h1] at hnb
      obtain ⟨nb', h⟩ := C77_symmetric hS
      have := (h p hp).1
      rw [hnb] at this
      rw [Res.ok.inj this]
      exact ⟨(h p hp).2.1.imp fun h => Nat.ne_of_lt h, fun q hq => ⟨((h p hp).2.2 q hq).1, ((h p hp).2.2 q hq).2.1⟩⟩
    · rw [if_neg h1] at hnb
      rw [← Res.ok.inj hnb]
      simp
  have hlt : ∀ q ∈ p :: nb, q < points.length := by
    intro q hq
    rcases List.mem_cons.1 hq with rfl | hq
    · exact hp
    · exact (hnb'.2 q hq).1
  have hnd : (p :: nb).Nodup := List.nodup_cons.2 ⟨fun h => (hnb'.2 p h).2 rfl, hnb'.1⟩
  refine hs.bounded b _ hb rfl ?_ ?_ ?_ ?_
  · have he' : ∀ q, (points.getD q []).length % 2 = 0 := by
      intro q
      by_cases hq : q < points.length
      · simp only [List.getD, List.getElem?_eq_getElem hq, Option.getD_some]
        exact even _ (List.getElem_mem hq)
      · simp [List.getD, List.getElem?_eq_none (not_lt.1 hq)]
    generalize p :: nb = l
    induction l with
    | nil => rfl
    | cons a t ih =>
      have : gensOf points (a :: t) = points.getD a [] ++ gensOf points t := rfl
      have := he' a
      rw [‹gensOf points (a :: t) = _›, List.length_append]; omega
  · intro h0
    have : gensOf points (p :: nb) = points.getD p [] ++ gensOf points nb := rfl
    rw [this, List.append_eq_nil_iff] at h0
    have h1 := h0.1
    simp only [List.getD, List.getElem?_eq_getElem hp, Option.getD_some] at h1
    exact some _ (List.getElem_mem hp) h1
  · rw [pts2_gensOf even, List.nodup_flatMap]
    refine ⟨fun q hq => ?_, hnd.imp_of_mem fun {q r} hq hr' hqr => ?_⟩
    · have := hlt q hq
      simp only [List.getD, List.getElem?_eq_getElem this, Option.getD_some]
      exact (List.nodup_flatMap.1 distinct).1 _ (List.getElem_mem this)
    · intro v h1 h2
      exact own_disjoint distinct (hlt q hq) (hlt r hr') hqr h1 h2
  · intro v hv
    rw [pts2_gensOf even] at hv
    obtain ⟨q, hq, hvq⟩ := List.mem_flatMap.1 hv
    exact own_sub (hlt q hq) hvq

/-- C101. With a serial tessellator that can be relied on, a call that asks for a convex region without holes, after any history, gives every process a mesh that has one cell for each of its points, in
their order: inside the region, the Voronoi cell among the points of all the processes. Missing are regions that are not convex or have holes, three dimensions, and points for which a hidden cell
touches a cell that is not (`C78_hidden_fails`). -/
theorem C101_cells_partial {dbg : Bool} {hull : List K → Res (RPLC K)} {s : Serial K} {b : Bounds K} {points : List (List K)} {Dom : V2 K → Prop} (few : points.length < 2 ^ 31)
    (even : ∀ l ∈ points, l.length % 2 = 0) (some : ∀ l ∈ points, l ≠ []) (distinct : (allPts points).Nodup) (hull_ok : ∀ l ∈ points, ∃ h, hull l = .ok h ∧ HullOf h (pts2 l))
    (inside : ∀ v ∈ allPts points, Dom v) (convex : ∀ u v t, Dom u → Dom v → 0 ≤ t → t ≤ 1 → Dom (lerp2 u v t)) (fair : Fair points Dom) (hb : b.Valid 2)
    (solid : (b.region 2).filled = b.region 2) (hs : Reliable s points (b.region 2) Dom) (hist : List (Bounds K)) (key : List K → κ) (mid : κ → κ → κ)
    {srt : List (κ × Nat) → List (κ × Nat)} (hsrt : Sorts srt) {p : Nat} (hp : p < points.length) :
    ∃ m, (DistObj.call dbg hull s key (faceKey2 dbg key mid) srt (DistObj.after {} hist) b points p).2 = .ok m ∧ ShowsPart m (own points p) (allPts points) Dom := by
  obtain ⟨b', h1, h2, h3⟩ := C101_boundary (κ := κ) dbg s hist hb
  rw [h3]
  exact C78_cells_partial (reliable_run (by rintro rfl; simp at hp) few even some distinct hull_ok inside convex hb h1 (h2.trans solid) hs) fair key mid hsrt hp
end

/-! ### An example -/
namespace Ex

/-- The rectangle as the cell of one point. -/
def oneMesh : Tess ℚ where
  nodes := [-2,-1, 2,-1, 2,1, -2,1]
  cells := [[0, 1, 2, 3]]
  faces := [[0, 1], [1, 2], [2, 3], [3, 0]]
  faceCells := [[0], [0], [0], [0]]
def onePolys : List (List (V2 ℚ)) := [[⟨-2, -1⟩, ⟨2, -1⟩, ⟨2, 1⟩, ⟨-2, 1⟩]]

theorem one_good (a b : ℚ) : GoodMesh oneMesh [⟨a, b⟩] Rect := by
  refine goodMesh_of (Ps := onePolys) ⟨by decide, by decide, by decide, by decide, by decide, by decide, by decide, by decide +kernel⟩ (by decide) rfl
    (fun i hi => loop_of ((by decide +kernel : ∀ i, i < 1 → pathB oneMesh (((cell oneMesh i).map (Editor.tail oneMesh)).headD 0) (cell oneMesh i) (((cell oneMesh i).map (Editor.tail oneMesh)).headD 0) = true) i hi))
    (by decide +kernel) rfl
    (fun i hi => (by unfold CellIs; decide +kernel : ∀ i, i < 1 → CellIs oneMesh i (onePolys.getD i [])) i hi) (by decide +kernel) (by decide +kernel) rfl rfl ?_
  intro i hi x
  have : i = 0 := by simpa using hi
  subst this
  simp only [onePolys, InPoly, dirSides, Rect, Closest, area2, List.getD_cons_zero, List.rotate_cons_succ, List.rotate_zero, List.cons_append, List.nil_append, List.zip_cons_cons, List.zip_nil_left, List.forall_mem_cons]
  constructor <;> intro h <;> casesm* _ ∧ _ <;> and_intros <;> first | linarith | simp

/-- A tessellator for the two points and the rectangle, with a PLC as boundary. -/
def pairSerial : Serial ℚ where
  free := pairTess
  inBox _ _ _ := .abort
  inPLC l _ _ := if l = [-1, 0, 1, 0] then .ok leftMesh else if l = [1, 0, -1, 0] then .ok rightMesh else .ok oneMesh

/-- The rectangle, with points in an odd order and one that is not used. -/
def rectBounds : Bounds ℚ := .plc [7, 7, 2, 1, -2, -1, 2, -1, -2, 1] ⟨[[2, 3], [3, 1], [1, 4], [4, 2]], []⟩

theorem two_points {l : List ℚ} (he : l.length % 2 = 0) (h0 : l ≠ []) (hn : (pts2 l).Nodup) (hs : ∀ v ∈ pts2 l, v = ⟨-1, 0⟩ ∨ v = ⟨1, 0⟩) :
    l = [-1, 0, 1, 0] ∨ l = [1, 0, -1, 0] ∨ l = [-1, 0] ∨ l = [1, 0] := by
  have hlen : (pts2 l).length ≤ 2 := by
    have : (pts2 l) ⊆ [⟨-1, 0⟩, ⟨1, 0⟩] := fun v hv => by simpa using hs v hv
    exact (List.subperm_of_subset hn this).length_le
  rw [pts2_length] at hlen
  have hpos := List.length_pos_iff.2 h0
  rcases (by omega : l.length = 2 ∨ l.length = 4) with h | h
  · obtain ⟨a, b, rfl⟩ := List.length_eq_two.1 h
    have := hs ⟨a, b⟩ (by simp [pts2_pair])
    simp only [V2.mk.injEq] at this
    rcases this with ⟨rfl, rfl⟩ | ⟨rfl, rfl⟩ <;> simp
  · match l, h with
    | [a, b, c, d], _ =>
      have e : pts2 [a, b, c, d] = [⟨a, b⟩, ⟨c, d⟩] := by
        have := pts2_append (a := [a, b]) (by simp) [c, d]
        simpa [pts2_pair] using this
      rw [e] at hn hs
      have s1 := hs ⟨a, b⟩ (by simp)
      have s2 := hs ⟨c, d⟩ (by simp)
      simp only [V2.mk.injEq] at s1 s2
      rcases s1 with ⟨rfl, rfl⟩ | ⟨rfl, rfl⟩ <;> rcases s2 with ⟨rfl, rfl⟩ | ⟨rfl, rfl⟩ <;> simp at hn ⊢

theorem pairReliable : Reliable pairSerial pairPoints (rectBounds.region 2) Rect where
  free := (pairSetup true).serial_ok
  bounded := by
    intro b l _ hr he h0 hn hs
    have hp : ∀ v ∈ pts2 l, v = ⟨-1, 0⟩ ∨ v = ⟨1, 0⟩ := by
      intro v hv
      have := hs v hv
      rw [(by decide +kernel : allPts pairPoints = [⟨-1, 0⟩, ⟨1, 0⟩])] at this
      simpa using this
    have hb : pairSerial.tess b l = if l = [-1, 0, 1, 0] then .ok leftMesh else if l = [1, 0, -1, 0] then .ok rightMesh else .ok oneMesh := by
      cases b with
      | unbounded => simp [Bounds.region, rectBounds] at hr
      | box _ _ => simp [Bounds.region, rectBounds] at hr
      | plc _ _ => rfl
      | reduced _ => rfl
    rw [hb]
    rcases two_points he h0 hn hp with rfl | rfl | rfl | rfl
    · exact ⟨leftMesh, by decide +kernel, left_good⟩
    · exact ⟨rightMesh, by decide +kernel, right_good⟩
    · exact ⟨oneMesh, by decide +kernel, one_good _ _⟩
    · exact ⟨oneMesh, by decide +kernel, one_good _ _⟩

/-- Two processes with a point each tessellate the rectangle, after a call for a box: process 1 gets the cell of its point among the two. -/
example (dbg : Bool) : ∃ m, (DistObj.call dbg pairHull pairSerial keyEx (faceKey2 dbg keyEx fun a b => a / 2 + b / 2) sortEx (DistObj.after {} [.box [0, 0] [1, 1]]) rectBounds pairPoints 1).2 = .ok m ∧
    ShowsPart m [⟨1, 0⟩] [⟨-1, 0⟩, ⟨1, 0⟩] Rect := by
  have h := C101_cells_partial (dbg := dbg) (hull := pairHull) (s := pairSerial) (b := rectBounds) (points := pairPoints) (Dom := Rect) (pairSetup dbg).few (pairSetup dbg).even (pairSetup dbg).some
    (pairSetup dbg).distinct (pairSetup dbg).hull_ok (runPair dbg).inside (runPair dbg).convex fairPair (by simp [rectBounds, Bounds.Valid, IsPoint]) rfl pairReliable [.box [0, 0] [1, 1]]
    keyEx (fun a b => a / 2 + b / 2) sortEx_sorts (p := 1) (by decide)
  rwa [(by decide +kernel : allPts pairPoints = [⟨-1, 0⟩, ⟨1, 0⟩]), (by decide +kernel : own pairPoints 1 = [⟨1, 0⟩])] at h

/-- The copy for that boundary: four points instead of five, in the order in which the facets name them. -/
example : visPLC 2 ([7, 7, 2, 1, -2, -1, 2, -1, -2, 1] : List ℚ) ⟨[[2, 3], [3, 1], [1, 4], [4, 2]], [[[0, 0]]]⟩ = .ok ([-2, -1, 2, -1, 2, 1, -2, 1], ⟨[[0, 1], [1, 2], [2, 3], [3, 0]], []⟩) := by
  decide +kernel
end Ex
end Verif.Nbr
