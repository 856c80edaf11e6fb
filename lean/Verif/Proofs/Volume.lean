import Verif.Proofs.Area
import Verif.Proofs.MeshQueries
import Verif.Proofs.Sides
import Mathlib.Data.List.Zip
import Mathlib.Data.List.Rotate
/- Proofs about 3D volumes and centroids. -/
namespace Verif.Geom
open Verif Verif.Mesh Verif.Editor

theorem rdV3_ok {K : Type} [Field K] {m : Tess K} {n : Nat} (h : n < numNodes 3 m) : rdV3 m.nodes n = .ok (pos3 m n) := by
  have h1 : 3 * n + 2 < m.nodes.length := by simp only [numNodes] at h; omega
  rw [rdV3, rd_getD (by omega) 0, rd_getD (by omega) 0, rd_getD h1 0]; rfl

/-! ### The vertex centroid and the face centroid -/

theorem sumNodes3_ok {K : Type} [Field K] [LinearOrder K] {dbg : Bool} {m : Tess K} : ∀ {ns : List Nat} {acc : V3 K}, (∀ n ∈ ns, n < numNodes 3 m) →
    sumNodes3 dbg m ns acc = .ok (ns.foldl (fun a n => a + pos3 m n) acc)
  | [], acc, _ => rfl
  | n :: ns, acc, h => by
    rw [sumNodes3]
    simp only [Res.bind_eq]
    rw [Res.assert_true dbg (by exact h n (by simp)), Res.bind_ok, rdV3_ok (h n (by simp)), Res.bind_ok, sumNodes3_ok fun k hk => h k (by simp [hk])]
    rfl

theorem cellFaceNodes_ok {K : Type} {m : Tess K} : ∀ {C : List Int}, (∀ s ∈ C, posID s < m.faces.length) →
    cellFaceNodes m C = .ok (C.flatMap fun s => face m (posID s))
  | [], _ => rfl
  | s :: C, h => by
    rw [cellFaceNodes, rd_getD (h s (by simp)) [], cellFaceNodes_ok fun t ht => h t (by simp [ht])]
    rfl

/-- The vertex average used by the code. -/
noncomputable def cmidOf (m : Tess ℝ) (C : List Int) : V3 ℝ :=
  V3.div ((uniq ((C.flatMap fun s => face m (posID s)).mergeSort (· ≤ ·))).foldl (fun a n => a + pos3 m n) 0)
    ((uniq ((C.flatMap fun s => face m (posID s)).mergeSort (· ≤ ·))).length : ℝ)

theorem cellCentroid3_ok {dbg : Bool} {m : Tess ℝ} (hc : Consistent 3 m) {c : Nat} (hlt : c < m.cells.length)
    (hne : ∃ s ∈ cell m c, face m (posID s) ≠ []) : cellCentroid3 dbg m c = .ok (cmidOf m (cell m c)) := by
  have hin : ∀ s ∈ cell m c, posID s < m.faces.length := hc.cells_lt _ (cell_mem hlt)
  have hmem : ∀ x, x ∈ uniq (((cell m c).flatMap fun s => face m (posID s)).mergeSort (· ≤ ·)) ↔ x ∈ (cell m c).flatMap fun s => face m (posID s) := by
    intro x; rw [uniq_mem, List.mem_mergeSort]
  rw [cellCentroid3]
  simp only [Res.bind_eq]
  rw [Res.assert_true dbg (by exact hlt), Res.bind_ok, rd_getD hlt []]
  change (Res.ok (cell m c) |>.bind _) = _
  rw [Res.bind_ok, cellFaceNodes_ok hin, Res.bind_ok, sumNodes3_ok, Res.bind_ok, Res.assert_true dbg, Res.bind_ok]
  · rfl
  · obtain ⟨s, hs, hne⟩ := hne
    obtain ⟨n, hn⟩ := List.exists_mem_of_ne_nil _ hne
    exact List.length_pos_of_mem ((hmem n).2 (List.mem_flatMap.2 ⟨s, hs, hn⟩))
  · intro n hn
    obtain ⟨s, hs, hn⟩ := List.mem_flatMap.1 ((hmem n).1 hn)
    exact hc.faces_lt _ (face_mem (hin s hs)) n hn

theorem foldl_add_pos (m : Tess ℝ) : ∀ (ns : List Nat) (acc : V3 ℝ), ns.foldl (fun a n => a + pos3 m n) acc =
    ⟨acc.x + (ns.map fun n => (pos3 m n).x).sum, acc.y + (ns.map fun n => (pos3 m n).y).sum, acc.z + (ns.map fun n => (pos3 m n).z).sum⟩
  | [], acc => by ext <;> simp
  | n :: ns, acc => by
    rw [List.foldl_cons, foldl_add_pos m ns]
    ext <;> simp <;> ring

/-- The three vertices found by the loop. -/
theorem faceLoop_full {dbg : Bool} {m : Tess ℝ} : ∀ {ns : List Nat} {acc : V3 ℝ} {verts : List (V3 ℝ)}, (∀ n ∈ ns, n < numNodes 3 m) → verts.length = 3 →
    faceLoop dbg m ns acc verts = .ok (ns.foldl (fun a n => a + pos3 m n) acc, verts)
  | [], acc, verts, _, _ => rfl
  | n :: ns, acc, verts, h, h3 => by
    rw [faceLoop]
    simp only [Res.bind_eq]
    rw [Res.assert_true dbg (by exact h n (by simp)), Res.bind_ok, rdV3_ok (h n (by simp)), Res.bind_ok, if_neg (by omega),
      faceLoop_full (fun k hk => h k (by simp [hk])) h3]
    rfl

theorem faceLoop_two {dbg : Bool} {m : Tess ℝ} {a b : V3 ℝ} : ∀ {ns : List Nat} {acc : V3 ℝ}, (∀ n ∈ ns, n < numNodes 3 m) →
    ((∃ n ∈ ns, ¬ collinear3 a b (pos3 m n) (1 / 10 ^ 10)) →
      ∃ c, faceLoop dbg m ns acc [a, b] = .ok (ns.foldl (fun a n => a + pos3 m n) acc, [a, b, c]) ∧ ¬ collinear3 a b c (1 / 10 ^ 10)) ∧
    ((∀ n ∈ ns, collinear3 a b (pos3 m n) (1 / 10 ^ 10)) → faceLoop dbg m ns acc [a, b] = .ok (ns.foldl (fun a n => a + pos3 m n) acc, [a, b]))
  | [], acc, _ => ⟨by simp, fun _ => rfl⟩
  | n :: ns, acc, h => by
    have hrest : ∀ k ∈ ns, k < numNodes 3 m := fun k hk => h k (by simp [hk])
    rw [faceLoop]
    simp only [Res.bind_eq]
    rw [Res.assert_true dbg (by exact h n (by simp)), Res.bind_ok, rdV3_ok (h n (by simp)), Res.bind_ok]
    by_cases hn : collinear3 a b (pos3 m n) (1 / 10 ^ 10)
    · rw [if_neg (by simpa using hn)]
      refine ⟨?_, fun hall => (faceLoop_two hrest).2 fun k hk => hall k (by simp [hk])⟩
      rintro ⟨k, hk, hkc⟩
      refine (faceLoop_two hrest).1 ⟨k, ?_, hkc⟩
      rcases List.mem_cons.1 hk with rfl | hk
      · exact absurd hn hkc
      · exact hk
    · rw [if_pos (by right; exact ⟨rfl, by simpa using hn⟩)]
      refine ⟨fun _ => ⟨pos3 m n, ?_, hn⟩, fun hall => absurd (hall n (by simp)) hn⟩
      rw [faceLoop_full hrest (by simp)]
      rfl

theorem faceCentroid_ok {dbg : Bool} {m : Tess ℝ} (hc : Consistent 3 m) {f : Nat} (hf : f < m.faces.length) (hp : ProperFace m (face m f)) :
    ∃ nrm, faceCentroidAndNormal dbg m f = .ok (mean3 m (face m f), nrm) := by
  obtain ⟨a, b, r, hF, hn⟩ := hp
  have hlt := hc.faces_lt _ (face_mem hf)
  have hr3 : r ≠ [] := by rintro rfl; obtain ⟨n, hn, -⟩ := hn; simp at hn
  have hlen : (face m f).length ≥ 3 := by
    rw [hF]; have := List.length_pos_of_ne_nil hr3; simp only [List.length_cons]; omega
  have ha := hlt a (by rw [hF]; simp)
  have hb := hlt b (by rw [hF]; simp)
  have hr : ∀ n ∈ r, n < numNodes 3 m := fun n hn => hlt n (by rw [hF]; simp [hn])
  obtain ⟨c, e, -⟩ := (faceLoop_two (dbg := dbg) (acc := 0 + pos3 m a + pos3 m b) hr).1 hn
  have hloop : faceLoop dbg m (face m f) 0 [] = .ok ((face m f).foldl (fun a n => a + pos3 m n) 0, [pos3 m a, pos3 m b, c]) := by
    rw [hF, faceLoop]
    simp only [Res.bind_eq]
    rw [Res.assert_true dbg (by exact ha), Res.bind_ok, rdV3_ok ha, Res.bind_ok, if_pos (by simp), faceLoop]
    simp only [Res.bind_eq]
    rw [Res.assert_true dbg (by exact hb), Res.bind_ok, rdV3_ok hb, Res.bind_ok, if_pos (by simp)]
    exact e
  refine ⟨unitVector3 (cross3 (pos3 m b - pos3 m a) (c - pos3 m a)), ?_⟩
  · rw [faceCentroidAndNormal]
    simp only [Res.bind_eq]
    rw [Res.assert_true dbg (by exact hf), Res.bind_ok, rd_getD hf []]
    change (Res.ok (face m f) |>.bind _) = _
    rw [Res.bind_ok, Res.assert_true dbg (by exact hlen), Res.bind_ok, hloop, Res.bind_ok, Res.assert_true dbg (by omega), Res.bind_ok,
      Res.assert_true dbg (by rfl), Res.bind_ok]
    rw [rd_lt (by simp), Res.bind_ok, rd_lt (by simp), Res.bind_ok, rd_lt (by simp), Res.bind_ok]
    simp only [Res.pure_eq]
    congr 2
    rw [foldl_add_pos]
    ext <;> simp [mean3, V3.div]

/-- A face that has at least two nodes but no proper third one: debug builds abort, release builds read past the end of the list of vertices. -/
theorem faceCentroid_bad {m : Tess ℝ} (hc : Consistent 3 m) {f : Nat} (hf : f < m.faces.length) {a b : Nat} {r : List Nat} (hF : face m f = a :: b :: r)
    (hn : ∀ n ∈ r, collinear3 (pos3 m a) (pos3 m b) (pos3 m n) (1 / 10 ^ 10)) :
    faceCentroidAndNormal true m f = .abort ∧ faceCentroidAndNormal false m f = .ub := by
  have hlt := hc.faces_lt _ (face_mem hf)
  have ha := hlt a (by rw [hF]; simp)
  have hb := hlt b (by rw [hF]; simp)
  have hr : ∀ n ∈ r, n < numNodes 3 m := fun n hn => hlt n (by rw [hF]; simp [hn])
  have hloop : ∀ dbg, faceLoop dbg m (face m f) 0 [] = .ok ((face m f).foldl (fun a n => a + pos3 m n) 0, [pos3 m a, pos3 m b]) := by
    intro dbg
    have e := (faceLoop_two (dbg := dbg) (acc := 0 + pos3 m a + pos3 m b) hr).2 hn
    rw [hF, faceLoop]
    simp only [Res.bind_eq]
    rw [Res.assert_true dbg (by exact ha), Res.bind_ok, rdV3_ok ha, Res.bind_ok, if_pos (by simp), faceLoop]
    simp only [Res.bind_eq]
    rw [Res.assert_true dbg (by exact hb), Res.bind_ok, rdV3_ok hb, Res.bind_ok, if_pos (by simp)]
    exact e
  constructor
  · rw [faceCentroidAndNormal]
    simp only [Res.bind_eq]
    rw [Res.assert_true true (by exact hf), Res.bind_ok, rd_getD hf []]
    change (Res.ok (face m f) |>.bind _) = _
    rw [Res.bind_ok]
    by_cases hlen : (face m f).length ≥ 3
    · rw [Res.assert_true true (by exact hlen), Res.bind_ok, hloop, Res.bind_ok, Res.assert_true true (by omega), Res.bind_ok, Res.assert_debug_false (by simp)]
      rfl
    · rw [Res.assert_debug_false (by exact hlen)]; rfl
  · rw [faceCentroidAndNormal]
    simp only [Res.bind_eq]
    rw [Res.assert_release, Res.bind_ok, rd_getD hf []]
    change (Res.ok (face m f) |>.bind _) = _
    rw [Res.bind_ok, Res.assert_release, Res.bind_ok, hloop, Res.bind_ok, Res.assert_release, Res.bind_ok, Res.assert_release, Res.bind_ok]
    rw [rd_lt (by simp), Res.bind_ok, rd_lt (by simp), Res.bind_ok, rd_ge (by simp)]
    rfl

/-! ### Summing tetrahedra -/

theorem tetLoop_ok {m : Tess ℝ} {c f : V3 ℝ} : ∀ {E : List (Nat × Nat)} {acc : ℝ × V3 ℝ}, (∀ e ∈ E, e.1 < numNodes 3 m ∧ e.2 < numNodes 3 m) →
    tetLoop m c f E acc = .ok (acc.1 + (E.map fun e => vol6 c (pos3 m e.1) (pos3 m e.2) f).sum,
      ⟨acc.2.x + (E.map fun e => vol6 c (pos3 m e.1) (pos3 m e.2) f * ((c.x + (pos3 m e.1).x + (pos3 m e.2).x + f.x) / 4)).sum,
       acc.2.y + (E.map fun e => vol6 c (pos3 m e.1) (pos3 m e.2) f * ((c.y + (pos3 m e.1).y + (pos3 m e.2).y + f.y) / 4)).sum,
       acc.2.z + (E.map fun e => vol6 c (pos3 m e.1) (pos3 m e.2) f * ((c.z + (pos3 m e.1).z + (pos3 m e.2).z + f.z) / 4)).sum⟩)
  | [], acc, _ => by simp [tetLoop]
  | (i, j) :: E, acc, h => by
    obtain ⟨hi, hj⟩ := h (i, j) (by simp)
    rw [tetLoop]
    simp only [Res.bind_eq]
    rw [rdV3_ok hj, Res.bind_ok, rdV3_ok hi, Res.bind_ok, tetLoop_ok fun e he => h e (by simp [he])]
    have ev : dot3 (cross3 (pos3 m i - c) (pos3 m j - c)) (f - c) = vol6 c (pos3 m i) (pos3 m j) f := by
      simp only [dot3, cross3, vol6, V3.sub_x, V3.sub_y, V3.sub_z]; ring
    simp only [List.map_cons, List.sum_cons, tetVolCent6, ev]
    congr 1
    ext
    · simp only; ring
    · simp only [V3.add_x, V3.scale_x]; ring
    · simp only [V3.add_y, V3.scale_y]; ring
    · simp only [V3.add_z, V3.scale_z]; ring

theorem dirSides_mem {G : List Nat} {e : Nat × Nat} (h : e ∈ dirSides G) : e.1 ∈ G ∧ e.2 ∈ G := by
  obtain ⟨a, b⟩ := e
  have := List.of_mem_zip h
  exact ⟨this.1, List.mem_rotate.1 this.2⟩

theorem orientedNodes_mem {R : Type} {m : Tess R} {s : Int} {n : Nat} : n ∈ orientedNodes m s ↔ n ∈ face m (posID s) := by
  unfold orientedNodes; split <;> simp

theorem volumeLoop_ok {dbg : Bool} {m : Tess ℝ} {c : V3 ℝ} (hc : Consistent 3 m) : ∀ {C : List Int} {acc : ℝ × V3 ℝ}, (∀ s ∈ C, posID s < m.faces.length) →
    (∀ s ∈ C, ProperFace m (face m (posID s))) →
    volumeLoop dbg m c C acc = .ok (acc.1 + fanVolume6 m c C, ⟨acc.2.x + fanMoment6 V3.x m c C, acc.2.y + fanMoment6 V3.y m c C, acc.2.z + fanMoment6 V3.z m c C⟩)
  | [], acc, _, _ => by simp [volumeLoop, fanVolume6, fanMoment6]
  | s :: C, acc, h, hp => by
    have hs := h s (by simp)
    obtain ⟨nrm, hfc⟩ := faceCentroid_ok (dbg := dbg) hc hs (hp s (by simp))
    have eo : (if s < 0 then (face m (posID s)).reverse else face m (posID s)) = orientedNodes m s := by
      unfold orientedNodes
      by_cases h0 : 0 ≤ s
      · rw [if_pos h0, if_neg (by omega)]
      · rw [if_neg h0, if_pos (by omega)]
    rw [volumeLoop, rd_getD hs []]
    change (Res.ok (face m (posID s)) |>.bind _) = _
    rw [Res.bind_ok, hfc]
    simp only [Res.bind_eq, Res.bind_ok]
    rw [eo]
    have ht := tetLoop_ok (m := m) (c := c) (f := mean3 m (face m (posID s))) (E := dirSides (orientedNodes m s)) (acc := acc) (by
      intro e he
      obtain ⟨h1, h2⟩ := dirSides_mem he
      exact ⟨hc.faces_lt _ (face_mem hs) _ (orientedNodes_mem.1 h1), hc.faces_lt _ (face_mem hs) _ (orientedNodes_mem.1 h2)⟩)
    rw [dirSides] at ht
    rw [ht, Res.bind_ok, volumeLoop_ok hc (fun t ht => h t (by simp [ht])) fun t ht => hp t (by simp [ht])]
    simp only [fanVolume6, fanMoment6, List.map_cons, List.sum_cons, dirSides]
    congr 1
    ext
    · simp only; ring
    · simp only; ring
    · simp only; ring
    · simp only; ring

theorem centroidAndVolume_eq {dbg : Bool} {m : Tess ℝ} (hc : Consistent 3 m) {c : Nat} (hlt : c < m.cells.length) (hne : cell m c ≠ [])
    (hp : ∀ s ∈ cell m c, ProperFace m (face m (posID s))) :
    ∃ o, centroidAndVolume dbg m c = (Res.assert dbg (fanVolume6 m o (cell m c) ≠ 0)).bind fun _ =>
      .ok (fanVolume6 m o (cell m c) / 6, V3.div ⟨fanMoment6 V3.x m o (cell m c), fanMoment6 V3.y m o (cell m c), fanMoment6 V3.z m o (cell m c)⟩ (fanVolume6 m o (cell m c))) := by
  have hin : ∀ s ∈ cell m c, posID s < m.faces.length := hc.cells_lt _ (cell_mem hlt)
  obtain ⟨s, hs⟩ := List.exists_mem_of_ne_nil _ hne
  have hnn : ∃ s ∈ cell m c, face m (posID s) ≠ [] := by
    obtain ⟨a, b, r, e, -⟩ := hp s hs
    exact ⟨s, hs, by rw [e]; simp⟩
  refine ⟨cmidOf m (cell m c), ?_⟩
  rw [centroidAndVolume]
  simp only [Res.bind_eq]
  rw [Res.assert_true dbg (by exact hlt), Res.bind_ok, cellCentroid3_ok hc hlt hnn, Res.bind_ok, rd_getD hlt []]
  change (Res.ok (cell m c) |>.bind _) = _
  rw [Res.bind_ok, volumeLoop_ok hc hin hp, Res.bind_ok]
  simp only [zero_add, V3.zero_x, V3.zero_y, V3.zero_z]
  congr

/-! ### Independence of the reference point -/

section
variable {K : Type} [Field K]

/-- Sums over the two ends of the sides of a closed list agree. -/
theorem dirSides_ends {V : Type} [AddCommMonoid V] (φ : Nat → V) (G : List Nat) : ((dirSides G).map fun e => φ e.1).sum = ((dirSides G).map fun e => φ e.2).sum := by
  unfold dirSides
  have h1 : (G.zip (G.rotate 1)).map (fun e => φ e.1) = G.map φ := by
    rw [show (fun e : Nat × Nat => φ e.1) = φ ∘ Prod.fst from rfl, ← List.map_map, List.map_fst_zip (by simp)]
  have h2 : (G.zip (G.rotate 1)).map (fun e => φ e.2) = (G.rotate 1).map φ := by
    rw [show (fun e : Nat × Nat => φ e.2) = φ ∘ Prod.snd from rfl, ← List.map_map, List.map_snd_zip (by simp)]
  rw [h1, h2]
  exact (List.Perm.map φ (List.rotate_perm G 1).symm).sum_eq

theorem sum_map_sub' {α V : Type} [AddCommGroup V] (f g : α → V) (l : List α) : (l.map f).sum - (l.map g).sum = (l.map fun a => f a - g a).sum := by
  induction l with
  | nil => simp
  | cons a l ih => simp only [List.map_cons, List.sum_cons, ← ih]; abel

theorem sum_map_neg' {α V : Type} [AddCommGroup V] (f : α → V) (l : List α) : (l.map fun a => - f a).sum = - (l.map f).sum := by
  induction l with
  | nil => simp
  | cons a l ih => simp only [List.map_cons, List.sum_cons, ih]; abel

/-- A quantity that changes sign with the direction of a side sums to zero over a closed cell. -/
theorem closedCell_sum [LinearOrder K] [IsStrictOrderedRing K] {R : Type} {m : Tess R} {C : List Int} (h : ClosedCell m C) (ψ : Nat → Nat → K) (hψ : ∀ a b, ψ b a = - ψ a b) :
    (C.map fun s => ((dirSides (orientedNodes m s)).map fun e => ψ e.1 e.2).sum).sum = 0 := by
  have e1 : (C.map fun s => ((dirSides (orientedNodes m s)).map fun e => ψ e.1 e.2).sum).sum = ((C.flatMap fun s => dirSides (orientedNodes m s)).map fun e => ψ e.1 e.2).sum := by
    induction C with
    | nil => simp
    | cons s C ih =>
      have : ∀ C : List Int, (C.map fun s => ((dirSides (orientedNodes m s)).map fun e => ψ e.1 e.2).sum).sum = ((C.flatMap fun s => dirSides (orientedNodes m s)).map fun e => ψ e.1 e.2).sum := by
        intro C
        induction C with
        | nil => simp
        | cons s C ih => rw [List.map_cons, List.sum_cons, ih, List.flatMap_cons, List.map_append, List.sum_append]
      exact this _
  rw [e1]
  have h1 := (List.Perm.map (fun e : Nat × Nat => ψ e.1 e.2) h).sum_eq
  rw [List.map_map] at h1
  have h2 : (C.flatMap fun s => dirSides (orientedNodes m s)).map ((fun e : Nat × Nat => ψ e.1 e.2) ∘ Prod.swap) =
      (C.flatMap fun s => dirSides (orientedNodes m s)).map fun e => - ψ e.1 e.2 := by
    refine List.map_congr_left fun e _ => ?_
    exact hψ _ _
  rw [h2, sum_map_neg'] at h1
  linarith

/-- Six times the signed volume of a triangle over the origin. -/
def det0 (a b c : V3 K) : K := a.x * (b.y * c.z - b.z * c.y) - a.y * (b.x * c.z - b.z * c.x) + a.z * (b.x * c.y - b.y * c.x)

theorem face_reduce (m : Tess K) (f : V3 K) (T : Nat → Nat → K) (T0 : Nat → Nat → K) (ψ : V3 K → V3 K → K) (hψ : ∀ a b, ψ b a = - ψ a b)
    (hT : ∀ a b, T a b = T0 a b - ψ (pos3 m a) (pos3 m b) - ψ (pos3 m b) f - ψ f (pos3 m a)) (G : List Nat) :
    ((dirSides G).map fun e => T e.1 e.2).sum = ((dirSides G).map fun e => T0 e.1 e.2).sum - ((dirSides G).map fun e => ψ (pos3 m e.1) (pos3 m e.2)).sum := by
  have h1 := dirSides_ends (fun n => ψ (pos3 m n) f) G
  have h2 : ((dirSides G).map fun e => ψ (pos3 m e.2) f).sum - ((dirSides G).map fun e => ψ (pos3 m e.1) f).sum = 0 := by rw [h1, sub_self]
  rw [sum_map_sub'] at h2
  rw [sum_map_sub', ← sub_zero (List.map (fun a : Nat × Nat => T0 a.1 a.2 - ψ (pos3 m a.1) (pos3 m a.2)) (dirSides G)).sum]
  rw [← h2, sum_map_sub']
  congr 1
  refine List.map_congr_left fun e _ => ?_
  rw [hT, hψ (pos3 m e.1) f]; ring

theorem cell_reduce [LinearOrder K] [IsStrictOrderedRing K] (m : Tess K) {C : List Int} (h : ClosedCell m C) (T T0 : Int → Nat → Nat → K) (ψ : V3 K → V3 K → K)
    (hψ : ∀ a b, ψ b a = - ψ a b)
    (hT : ∀ s a b, T s a b = T0 s a b - ψ (pos3 m a) (pos3 m b) - ψ (pos3 m b) (mean3 m (face m (posID s))) - ψ (mean3 m (face m (posID s))) (pos3 m a)) :
    (C.map fun s => ((dirSides (orientedNodes m s)).map fun e => T s e.1 e.2).sum).sum = (C.map fun s => ((dirSides (orientedNodes m s)).map fun e => T0 s e.1 e.2).sum).sum := by
  rw [← sub_zero (C.map fun s => ((dirSides (orientedNodes m s)).map fun e => T0 s e.1 e.2).sum).sum,
    ← closedCell_sum h (fun a b => ψ (pos3 m a) (pos3 m b)) (fun a b => hψ _ _), sum_map_sub']
  congr 1
  refine List.map_congr_left fun s _ => ?_
  exact face_reduce m _ (T s) (T0 s) ψ hψ (hT s) _

theorem fanVolume_indep [LinearOrder K] [IsStrictOrderedRing K] (m : Tess K) {C : List Int} (h : ClosedCell m C) (o : V3 K) :
    fanVolume6 m o C = (C.map fun s => ((dirSides (orientedNodes m s)).map fun e => det0 (pos3 m e.1) (pos3 m e.2) (mean3 m (face m (posID s)))).sum).sum := by
  refine cell_reduce m h (fun s a b => vol6 o (pos3 m a) (pos3 m b) (mean3 m (face m (posID s)))) (fun s a b => det0 (pos3 m a) (pos3 m b) (mean3 m (face m (posID s))))
    (fun a b => det0 o a b) ?_ ?_
  · intro a b; simp only [det0]; ring
  · intro s a b; simp only [det0, vol6]; ring

/-- A linear function of a position. -/
def lin (α β γ : K) (v : V3 K) : K := α * v.x + β * v.y + γ * v.z

theorem fanMoment_indep [LinearOrder K] [IsStrictOrderedRing K] (α β γ : K) (m : Tess K) {C : List Int} (h : ClosedCell m C) (o : V3 K) :
    fanMoment6 (lin α β γ) m o C = (C.map fun s => ((dirSides (orientedNodes m s)).map fun e => det0 (pos3 m e.1) (pos3 m e.2) (mean3 m (face m (posID s))) *
      ((lin α β γ (pos3 m e.1) + lin α β γ (pos3 m e.2) + lin α β γ (mean3 m (face m (posID s)))) / 4)).sum).sum := by
  refine cell_reduce m h (fun s a b => vol6 o (pos3 m a) (pos3 m b) (mean3 m (face m (posID s))) * ((lin α β γ o + lin α β γ (pos3 m a) + lin α β γ (pos3 m b) + lin α β γ (mean3 m (face m (posID s)))) / 4))
    (fun s a b => det0 (pos3 m a) (pos3 m b) (mean3 m (face m (posID s))) * ((lin α β γ (pos3 m a) + lin α β γ (pos3 m b) + lin α β γ (mean3 m (face m (posID s)))) / 4))
    (fun a b => det0 o a b * ((lin α β γ o + lin α β γ a + lin α β γ b) / 4)) ?_ ?_
  · intro a b; simp only [det0, lin]; ring
  · intro s a b
    generalize pos3 m a = a
    generalize pos3 m b = b
    generalize mean3 m (face m (posID s)) = f
    simp only [det0, vol6, lin]; ring

theorem moment_x (m : Tess K) (o : V3 K) (C : List Int) : fanMoment6 V3.x m o C = fanMoment6 (lin 1 0 0) m o C := by simp [fanMoment6, lin]
theorem moment_y (m : Tess K) (o : V3 K) (C : List Int) : fanMoment6 V3.y m o C = fanMoment6 (lin 0 1 0) m o C := by simp [fanMoment6, lin]
theorem moment_z (m : Tess K) (o : V3 K) (C : List Int) : fanMoment6 V3.z m o C = fanMoment6 (lin 0 0 1) m o C := by simp [fanMoment6, lin]

end
end Verif.Geom

namespace Verif.Geom
open Verif Verif.Mesh Verif.Editor
section
variable {K : Type} [Field K]

/-! ### Sums over all cells, moved meshes -/

theorem sum_sides_signed (m : Tess K) (ψ : Int → Nat → Nat → K) (hψ : ∀ s a b, ψ s b a = - ψ s a b) (hs : ∀ s, ψ s = ψ (posID s : Int)) (s : Int) :
    ((dirSides (orientedNodes m s)).map fun e => ψ s e.1 e.2).sum =
      if 0 ≤ s then ((dirSides (face m (posID s))).map fun e => ψ (posID s : Int) e.1 e.2).sum
      else - ((dirSides (face m (posID s))).map fun e => ψ (posID s : Int) e.1 e.2).sum := by
  rw [hs]
  unfold orientedNodes
  split
  · rfl
  · rw [((dirSides_reverse _).map _).sum_eq, List.map_map, ← sum_map_neg']
    congr 1
    refine List.map_congr_left fun e _ => ?_
    exact hψ _ _ _

theorem vol_signed (m : Tess K) (o : V3 K) (s : Int) :
    ((dirSides (orientedNodes m s)).map fun e => vol6 o (pos3 m e.1) (pos3 m e.2) (mean3 m (face m (posID s)))).sum =
      if 0 ≤ s then ((dirSides (face m (posID s))).map fun e => vol6 o (pos3 m e.1) (pos3 m e.2) (mean3 m (face m (posID s)))).sum
      else - ((dirSides (face m (posID s))).map fun e => vol6 o (pos3 m e.1) (pos3 m e.2) (mean3 m (face m (posID s)))).sum := by
  have h := sum_sides_signed m (fun s a b => vol6 o (pos3 m a) (pos3 m b) (mean3 m (face m (posID s)))) (by intro s a b; simp only [vol6]; ring)
    (by intro s; rw [posID_natCast]) s
  simpa only [posID_natCast] using h

theorem mean3_moved {m m' : Tess K} [CharZero K] {v : V3 K} {F : List Nat} (hF : F ≠ []) (h : ∀ n ∈ F, pos3 m' n = pos3 m n + v) : mean3 m' F = mean3 m F + v := by
  have hn : (F.length : K) ≠ 0 := by
    have := List.length_pos_of_ne_nil hF
    exact_mod_cast this.ne'
  have key : ∀ (π : V3 K → K), (∀ a b, π (a + b) = π a + π b) → (F.map fun n => π (pos3 m' n)).sum / F.length = (F.map fun n => π (pos3 m n)).sum / F.length + π v := by
    intro π hπ
    have : (F.map fun n => π (pos3 m' n)).sum = (F.map fun n => π (pos3 m n)).sum + F.length * π v := by
      clear hF hn
      induction F with
      | nil => simp
      | cons a F ih =>
        rw [List.map_cons, List.sum_cons, ih fun n hn => h n (by simp [hn]), h a (by simp), hπ]
        simp only [List.map_cons, List.sum_cons, List.length_cons, Nat.cast_add, Nat.cast_one]; ring
    rw [this, add_div, mul_div_cancel_left₀ _ hn]
  simp only [mean3]
  ext
  · exact key V3.x fun a b => rfl
  · exact key V3.y fun a b => rfl
  · exact key V3.z fun a b => rfl

end
end Verif.Geom
