import Mathlib.Order.Interval.Finset.Nat
import Verif.Props.TriSides
import Verif.Proofs.TriRound
import Verif.Proofs.TriBox
import Verif.Spec.Voronoi
/- From an `IsDelaunay` triangulation to the Voronoi mesh. -/
namespace Verif.Tri
open Verif Verif.Mesh Verif.Internal Verif.Geom Verif.Readout

/-- Where the generators and the guards are. -/
noncomputable def sites (q : QT) : List (V2 ℝ) := (q.generators ++ q.guards).map (dequantize2 q)

theorem ptAt_sites (q : QT) (k : Nat) : ptAt q k = (sites q)[k]? := by unfold ptAt sites; rw [List.getElem?_map]

/-- What the constructor from a boundary makes: the generators are in the middle of a frame of guards. -/
structure Framed (q : QT) : Prop where
  size : 0 < q.length
  guards : ∃ n, q.guards = guardGens n
  coords : ∀ g ∈ q.generators, (cmin2 ≤ g.x ∧ g.x ≤ cmax2) ∧ cmin2 ≤ g.y ∧ g.y ≤ cmax2
  mid : ∀ g ∈ q.generators, (q.xmin + 0.39 * q.length ≤ (dequantize2 q g).x ∧ (dequantize2 q g).x ≤ q.xmin + 0.61 * q.length) ∧
    q.ymin + 0.39 * q.length ≤ (dequantize2 q g).y ∧ (dequantize2 q g).y ≤ q.ymin + 0.61 * q.length

/-- The guards on the sides of the frame. -/
theorem guard_sites {q : QT} (h : Framed q) : ∃ m t, (0.49 * q.length ≤ m ∧ m ≤ 0.51 * q.length) ∧ (0.99 * q.length ≤ t ∧ t ≤ q.length) ∧
    ∀ g, g = 0 ∨ g = m ∨ g = t → (⟨q.xmin + g, q.ymin⟩ : V2 ℝ) ∈ sites q ∧ (⟨q.xmin + g, q.ymin + q.length⟩ : V2 ℝ) ∈ sites q ∧
      (⟨q.xmin, q.ymin + g⟩ : V2 ℝ) ∈ sites q ∧ (⟨q.xmin + q.length, q.ymin + g⟩ : V2 ℝ) ∈ sites q := by
  obtain ⟨n, hg⟩ := h.guards
  have hm := quantum_mul grid2 (length := q.length)
  rw [show ((cmax2 - cmin2 : Int) : ℝ) = 2147483647 by norm_num [cmin2, cmax2]] at hm
  have hs := h.size
  set u := quantum cmin2 cmax2 q.length with hu
  have d0 : ∀ o, dequantize1 cmin2 cmax2 q.length o cmin2 = o := by intro o; simp [dequantize1]
  have d1 : ∀ o, dequantize1 cmin2 cmax2 q.length o cmax2 = o + q.length := by
    intro o; unfold dequantize1; rw [← hu]; rw [show ((cmax2 - cmin2 : Int) : ℝ) = 2147483647 by norm_num [cmin2, cmax2]]; linarith
  have mem : ∀ ix : Nat, ix < 3 → ∀ g : ℝ, (∀ o, dequantize1 cmin2 cmax2 q.length o (guardCoord ix) = o + g) → (⟨q.xmin + g, q.ymin⟩ : V2 ℝ) ∈ sites q ∧ (⟨q.xmin + g, q.ymin + q.length⟩ : V2 ℝ) ∈ sites q ∧
      (⟨q.xmin, q.ymin + g⟩ : V2 ℝ) ∈ sites q ∧ (⟨q.xmin + q.length, q.ymin + g⟩ : V2 ℝ) ∈ sites q := by
    intro ix hix g hgc
    have sub : ∀ x : IPt, x ∈ [(⟨guardCoord ix, cmin2, n + 4 * ix⟩ : IPt), ⟨guardCoord ix, cmax2, n + 4 * ix + 1⟩, ⟨cmin2, guardCoord ix, n + 4 * ix + 2⟩, ⟨cmax2, guardCoord ix, n + 4 * ix + 3⟩] →
        dequantize2 q x ∈ sites q := by
      intro x hx
      refine List.mem_map_of_mem (List.mem_append_right _ ?_)
      rw [hg]
      exact List.mem_flatMap.2 ⟨ix, List.mem_range.2 hix, hx⟩
    refine ⟨?_, ?_, ?_, ?_⟩
    · have := sub ⟨guardCoord ix, cmin2, n + 4 * ix⟩ (by simp)
      simpa only [dequantize2, hgc, d0] using this
    · have := sub ⟨guardCoord ix, cmax2, n + 4 * ix + 1⟩ (by simp)
      simpa only [dequantize2, hgc, d1] using this
    · have := sub ⟨cmin2, guardCoord ix, n + 4 * ix + 2⟩ (by simp)
      simpa only [dequantize2, hgc, d0] using this
    · have := sub ⟨cmax2, guardCoord ix, n + 4 * ix + 3⟩ (by simp)
      simpa only [dequantize2, hgc, d1] using this
  refine ⟨1073741823 * u, q.length - u, ⟨by linarith, by linarith⟩, ⟨by linarith, by linarith⟩, ?_⟩
  rintro g (rfl | rfl | rfl)
  · refine mem 0 (by omega) 0 fun o => ?_
    rw [show guardCoord 0 = cmin2 by decide, d0]; ring
  · refine mem 1 (by omega) _ fun o => ?_
    rw [show guardCoord 1 = cmin2 + 1073741823 by decide]
    unfold dequantize1
    rw [← hu]; push_cast; ring
  · refine mem 2 (by omega) _ fun o => ?_
    rw [show guardCoord 2 = cmax2 - 1 by decide]
    unfold dequantize1
    rw [← hu, show ((cmax2 - 1 - cmin2 : Int) : ℝ) = 2147483646 by norm_num [cmin2, cmax2]]
    linarith

/-- A place with a generator among its nearest points is inside the frame. -/
theorem frame_fits {q : QT} (h : Framed q) {g : IPt} (hg : g ∈ q.generators) {X : V2 ℝ} (hX : Nearest (sites q) (dequantize2 q g) X) :
    (q.xmin ≤ X.x ∧ X.x ≤ q.xmin + q.length) ∧ q.ymin ≤ X.y ∧ X.y ≤ q.ymin + q.length := by
  obtain ⟨m, t, ⟨m0, m1⟩, ⟨t0, t1⟩, hs⟩ := guard_sites h
  obtain ⟨⟨a1, a2⟩, a3, a4⟩ := h.mid g hg
  obtain ⟨p1, p2, p3, p4⟩ := hs 0 (Or.inl rfl)
  obtain ⟨q1, q2, q3, q4⟩ := hs m (Or.inr (Or.inl rfl))
  obtain ⟨r1, r2, r3, r4⟩ := hs t (Or.inr (Or.inr rfl))
  generalize dequantize2 q g = P at *
  have n := fun Q hQ => hX Q hQ
  simp only [sq2] at n
  have R := inside_frame (S := q.length) (px := P.x - q.xmin) (py := P.y - q.ymin) (x := X.x - q.xmin) (y := X.y - q.ymin) h.size (by linarith) (by linarith) (by linarith) (by linarith) m0 m1 t0 t1
    (by have := n _ p4; dsimp only at this; linarith) (by have := n _ q4; dsimp only at this; linarith) (by have := n _ r4; dsimp only at this; linarith)
  have L := inside_frame (S := q.length) (px := q.length - (P.x - q.xmin)) (py := P.y - q.ymin) (x := q.length - (X.x - q.xmin)) (y := X.y - q.ymin) h.size (by linarith) (by linarith) (by linarith) (by linarith) m0 m1 t0 t1
    (by have := n _ p3; dsimp only at this; linarith) (by have := n _ q3; dsimp only at this; linarith) (by have := n _ r3; dsimp only at this; linarith)
  have U := inside_frame (S := q.length) (px := P.y - q.ymin) (py := P.x - q.xmin) (x := X.y - q.ymin) (y := X.x - q.xmin) h.size (by linarith) (by linarith) (by linarith) (by linarith) m0 m1 t0 t1
    (by have := n _ p2; dsimp only at this; linarith) (by have := n _ q2; dsimp only at this; linarith) (by have := n _ r2; dsimp only at this; linarith)
  have D := inside_frame (S := q.length) (px := q.length - (P.y - q.ymin)) (py := P.x - q.xmin) (x := q.length - (X.y - q.ymin)) (y := X.x - q.xmin) h.size (by linarith) (by linarith) (by linarith) (by linarith) m0 m1 t0 t1
    (by have := n _ p1; dsimp only at this; linarith) (by have := n _ q1; dsimp only at this; linarith) (by have := n _ r1; dsimp only at this; linarith)
  exact ⟨⟨by linarith, by linarith⟩, by linarith, by linarith⟩

/-- The centre of a triangle has its corners as nearest points. -/
theorem centre_nearest {q : QT} {n : Nat} {tris : List (Nat × Nat × Nat)} (hD : IsDelaunay (sites q) n tris) {t : Nat × Nat × Nat} (ht : t ∈ tris) {X : V2 ℝ} (hX : Equidistant q t X) :
    ∀ x ∈ corners t, ∃ P, (sites q)[x]? = some P ∧ Nearest (sites q) P X := by
  obtain ⟨A, B, C, hA, hB, hC, h1, h2⟩ := hX
  rw [ptAt_sites] at hA hB hC
  have := hD.empty t ht A B C X hA hB hC h1 h2
  intro x hx
  simp only [corners, List.mem_cons, List.not_mem_nil, or_false] at hx
  rcases hx with rfl | rfl | rfl
  · exact ⟨A, hA, this⟩
  · exact ⟨B, hB, fun Q hQ => by rw [← h1]; exact this Q hQ⟩
  · exact ⟨C, hC, fun Q hQ => by rw [← h2, ← h1]; exact this Q hQ⟩

/-- An `IsDelaunay` triangulation in a frame of guards is one that C68 takes. -/
theorem framed_triangulates {q : QT} (h : Framed q) (hn : 0 < q.generators.length) {tris : List (Nat × Nat × Nat)} (hD : IsDelaunay (sites q) q.generators.length tris) : Triangulates q tris := by
  refine ⟨h.size, ?_, ?_, ?_, ?_⟩
  · intro p hp
    rcases List.mem_append.1 hp with hp | hp
    · exact h.coords p hp
    · obtain ⟨n, hg⟩ := h.guards
      rw [hg] at hp
      obtain ⟨ix, hix, hp⟩ := List.mem_flatMap.1 hp
      rw [List.mem_range] at hix
      have hc : cmin2 ≤ guardCoord ix ∧ guardCoord ix ≤ cmax2 := by
        have : ix = 0 ∨ ix = 1 ∨ ix = 2 := by omega
        rcases this with rfl | rfl | rfl <;> decide
      have h0 : cmin2 ≤ cmax2 := by decide
      simp only [List.mem_cons, List.not_mem_nil, or_false] at hp
      rcases hp with rfl | rfl | rfl | rfl
      exacts [⟨hc, le_refl _, h0⟩, ⟨hc, h0, le_refl _⟩, ⟨⟨le_refl _, h0⟩, hc⟩, ⟨⟨h0, le_refl _⟩, hc⟩]
  · rintro rfl
    obtain ⟨ts, gs, hf, _⟩ := hD.around 0 hn
    have h3 := hf.three
    have := (hf.all _).1 (List.getElem_mem (show 0 < ts.length by omega))
    simp [cornersOf] at this
  · intro t ht
    simp only [ptAt_sites]
    exact hD.ccw t ht
  · rintro t ht ⟨g, hg, hgn⟩ X hX
    obtain ⟨P, hP, hN⟩ := centre_nearest hD ht hX g hg
    have : P = dequantize2 q (q.generators[g]) := by
      unfold sites at hP
      rw [List.getElem?_map, List.getElem?_append_left hgn, List.getElem?_eq_getElem hgn] at hP
      exact (Option.some.inj hP).symm
    subst this
    obtain ⟨⟨f1, f2⟩, f3, f4⟩ := frame_fits h (List.getElem_mem hgn) hN
    have := h.size
    exact ⟨by linarith, f2, by linarith, f4⟩

theorem countP_flatten_le_one {cells : List (List Int)} {P : Int → Bool} {x : Nat} (h1 : ∀ p, (cells.getD p []).countP P ≤ 1) (h2 : ∀ p, 0 < (cells.getD p []).countP P → p = x) : cells.flatten.countP P ≤ 1 := by
  rw [List.countP_flatten]
  have e : (cells.map (List.countP P)).sum = ∑ p ∈ Finset.range cells.length, (cells.getD p []).countP P := by
    rw [Finset.sum_range, ← List.sum_ofFn]
    congr 1
    apply List.ext_getElem
    · simp
    · intro i h1 h2; simp
  rw [e]
  calc ∑ p ∈ Finset.range cells.length, (cells.getD p []).countP P ≤ ∑ p ∈ Finset.range cells.length, (if p = x then 1 else 0) := by
        apply Finset.sum_le_sum
        intro p _
        have := h1 p
        by_cases hz : 0 < (cells.getD p []).countP P
        · rw [if_pos (h2 p hz)]; omega
        · omega
    _ ≤ 1 := by
        rw [Finset.sum_ite_eq']
        split <;> omega

/-- The points around an inside point, with cyclic indices, go around it. -/
theorem rim_turns {pts : List (V2 ℝ)} {p : Nat} {ts gs : List Nat} {T : List (Nat × Nat × Nat)} (hf : Fan T p ts gs)
    (h : ∀ k, k < gs.length → ∃ P A B, pts[p]? = some P ∧ pts[gs.getD k 0]? = some A ∧ pts[gs.getD ((k + 1) % gs.length) 0]? = some B ∧ 0 < area2 P A B) (k : Int) :
    ∃ P A B, pts[p]? = some P ∧ pts[cyc gs k]? = some A ∧ pts[cyc gs (k + 1)]? = some B ∧ 0 < area2 P A B := by
  have h3 := hf.three
  have hl := hf.len
  have ha := Int.emod_nonneg k (b := (gs.length : Int)) (by omega)
  have ha' := Int.emod_lt_of_pos k (b := (gs.length : Int)) (by omega)
  have := h (k % gs.length).toNat (by omega)
  have e : (((k % gs.length).toNat + 1) % gs.length) = ((k + 1) % gs.length).toNat := by
    have : ((((k % gs.length).toNat + 1) % gs.length : Nat) : Int) = (k + 1) % gs.length := by
      push_cast
      rw [Int.toNat_of_nonneg ha, Int.emod_add_emod]
    omega
  rw [e] at this
  exact this

/-- The sides of the cell of point `p`, and the places nearest to it. -/
theorem region_sides {S : List (V2 ℝ)} {p : Nat} {T : List (Nat × Nat × Nat)} {ts gs : List Nat} (hT : ∀ t ∈ T, Proper t) (hf : Fan T p ts gs)
    (hr : ∀ k, k < gs.length → ∃ P A B, S[p]? = some P ∧ S[gs.getD k 0]? = some A ∧ S[gs.getD ((k + 1) % gs.length) 0]? = some B ∧ 0 < area2 P A B)
    {V : Nat → V2 ℝ} (hV : ∀ k, ∀ x ∈ cornersOf T k, ∃ P, S[x]? = some P ∧ Nearest S P (V k)) {P : V2 ℝ} (hP : S[p]? = some P) (Y : V2 ℝ) :
    Nearest S P Y ↔ ∃ a b, Across T p a b ∧ InTri P (V a) (V b) Y := by
  have hI := hf.toI hT
  have h3 := hI.three
  have turn := rim_turns hf hr
  set pos : Nat → V2 ℝ := fun k => S[k]?.getD ⟨0, 0⟩ with hpos
  have pe : ∀ {k : Nat} {A : V2 ℝ}, S[k]? = some A → pos k = A := by
    intro k A hk
    simp only [hpos, hk, Option.getD_some]
  have hcorner : ∀ k x, x ∈ cornersOf T k → pos x ∈ S ∧ Nearest S (pos x) (V k) := by
    intro k x hx
    obtain ⟨Q, hQ, hN⟩ := hV k x hx
    rw [pe hQ]
    exact ⟨List.mem_of_getElem? hQ, hN⟩
  have hpp : pos p = P := pe hP
  have eqd : ∀ k x y, x ∈ cornersOf T k → y ∈ cornersOf T k → sq2 (V k) (pos x) = sq2 (V k) (pos y) := by
    intro k x y hx hy
    obtain ⟨x1, x2⟩ := hcorner k x hx
    obtain ⟨y1, y2⟩ := hcorner k y hy
    exact le_antisymm (x2 _ y1) (y2 _ x1)
  have cp : ∀ a, p ∈ cornersOf T (cyc ts a) := fun a => (hI.tri a p).2 (Or.inl rfl)
  have cg : ∀ a, cyc gs a ∈ cornersOf T (cyc ts a) := fun a => (hI.tri a _).2 (Or.inr (Or.inl rfl))
  have cg' : ∀ a, cyc gs (a + 1) ∈ cornersOf T (cyc ts a) := fun a => (hI.tri a _).2 (Or.inr (Or.inr rfl))
  have key := region (S := S) (p := P) (g := fun k => pos (cyc gs k)) (c := fun k => V (cyc ts k)) (N := ts.length) (by omega)
    (fun k => by
      have : cyc gs (k + ts.length) = cyc gs k := (hI.ginj _ _).2 ⟨1, by ring⟩
      simp only [this])
    (fun k => by
      have : cyc ts (k + ts.length) = cyc ts k := (hI.vinj _ _).2 ⟨1, by ring⟩
      simp only [this])
    (fun k => by
      obtain ⟨P', A, B, hP', hA, hB, h⟩ := turn k
      rw [hP] at hP'; injection hP' with hP'; subst hP'
      simp only [pe hA, pe hB]; exact h)
    (fun k => by rw [← hpp]; exact eqd _ _ _ (cp k) (cg k))
    (fun k => by rw [← hpp]; exact eqd _ _ _ (cp k) (cg' k))
    (fun k => (hcorner _ _ (cg k)).1)
    (fun k Q hQ => by rw [← hpp]; exact (hcorner _ _ (cp k)).2 Q hQ) Y
  rw [show Nearest S P Y ↔ ∀ Q ∈ S, sq2 Y P ≤ sq2 Y Q from Iff.rfl, key]
  constructor
  · rintro ⟨k, h⟩
    exact ⟨_, _, (hI.across _ _).2 ⟨k, Or.inl ⟨rfl, rfl⟩⟩, h⟩
  · rintro ⟨a, b, hab, x, y, x0, y0, xy, e1, e2⟩
    obtain ⟨k, ⟨rfl, rfl⟩ | ⟨rfl, rfl⟩⟩ := (hI.across _ _).1 hab
    · exact ⟨k, x, y, x0, y0, xy, e1, e2⟩
    · exact ⟨k, y, x, y0, x0, by linarith, by linarith, by linarith⟩

/-- A point that is not among the first `n` is next to one of the first `n`. -/
theorem outer_neighbour {S : List (V2 ℝ)} {n : Nat} (hn : 0 < n) {T : List (Nat × Nat × Nat)} (hT : ∀ t ∈ T, Proper t)
    (hf : ∀ p, p < n → ∃ ts gs, Fan T p ts gs ∧ ∀ k, k < gs.length → ∃ P A B, S[p]? = some P ∧ S[gs.getD k 0]? = some A ∧ S[gs.getD ((k + 1) % gs.length) 0]? = some B ∧ 0 < area2 P A B) :
    ∃ p, p < n ∧ ∃ a b, Across T p a b ∧ ∀ p', p' < n → Across T p' a b → p' = p := by
  set pos : Nat → V2 ℝ := fun k => S[k]?.getD ⟨0, 0⟩ with hpos
  have pe : ∀ {k : Nat} {A : V2 ℝ}, S[k]? = some A → pos k = A := by
    intro k A hk
    simp only [hpos, hk, Option.getD_some]
  obtain ⟨p, hp, hmax⟩ := Finset.exists_max_image (Finset.range n) (fun k => (pos k).x) ⟨0, Finset.mem_range.2 hn⟩
  rw [Finset.mem_range] at hp
  obtain ⟨ts, gs, hfan, hr⟩ := hf p hp
  have hI := hfan.toI hT
  have h3 := hI.three
  have turn := rim_turns hfan hr
  have : ∃ k : Int, (pos p).x < (pos (cyc gs k)).x := by
    by_contra hc
    push Not at hc
    refine no_halfplane (ex := fun k => (pos (cyc gs k)).x - (pos p).x) (ey := fun k => (pos (cyc gs k)).y - (pos p).y) (N := ts.length) (by omega) ?_ ?_ ?_ (ux := -1) (uy := 0) (by norm_num) ?_
    · intro k
      have : cyc gs (k + ts.length) = cyc gs k := (hI.ginj _ _).2 ⟨1, by ring⟩
      simp only [this]
    · intro k
      have : cyc gs (k + ts.length) = cyc gs k := (hI.ginj _ _).2 ⟨1, by ring⟩
      simp only [this]
    · intro k
      obtain ⟨P, A, B, hP, hA, hB, h⟩ := turn k
      simp only [pe hP, pe hA, pe hB]
      unfold area2 at h
      linarith
    · intro k
      have := hc k
      linarith
  obtain ⟨k, hk⟩ := this
  have hout : ¬ cyc gs k < n := fun h => absurd (hmax _ (Finset.mem_range.2 h)) (not_le.2 hk)
  refine ⟨p, hp, cyc ts (k - 1), cyc ts (k - 1 + 1), (hI.across _ _).2 ⟨k - 1, Or.inl ⟨rfl, rfl⟩⟩, ?_⟩
  rintro p' hp' ⟨_, _, _, m1, m2, _⟩
  rw [show k - 1 + 1 = k by ring] at m2
  rcases (hI.tri _ _).1 m2 with h | h | h
  · exact h
  · rw [h] at hp'; exact absurd hp' hout
  · rcases (hI.tri _ _).1 m1 with h' | h' | h'
    · exact h'
    · exfalso
      rw [h, hI.ginj] at h'
      have := dvd_small h' (by omega) (by omega)
      omega
    · rw [show k - 1 + 1 = k by ring] at h'
      rw [h'] at hp'; exact absurd hp' hout

/-- From a frame and its Delaunay triangulation to the Voronoi mesh, with a face on its boundary. -/
theorem voronoi_core (delaunay : List (V2 ℝ) → List (Nat × Nat × Nat)) (dbg : Bool) {q : QT} (h : Framed q) (hn : 0 < q.generators.length)
    (hD : IsDelaunay (sites q) q.generators.length (delaunay (sites q))) :
    ∃ q' m V, triangleTess delaunay dbg q = .ok q' ∧ fillTess dbg q' {} = .ok m ∧ Consistent 2 m ∧ VoronoiMesh (sites q) q.generators.length (quantum cmin2 cmax2 q.length) V m ∧
      ∃ f, f < m.faces.length ∧ (cellsOf m f).length = 1 ∧ face m f ≠ [] := by
  have hTri := framed_triangulates h hn hD
  have hF : ∀ p, p < q.generators.length → ∃ ts gs, Fan (delaunay (sites q)) p ts gs := fun p hp => let ⟨ts, gs, hf, _⟩ := hD.around p hp; ⟨ts, gs, hf⟩
  obtain ⟨nodes, edges, cells, m, e, e1, hDual, hN, hc, g1, g2, g3, g4, g5⟩ := mesh_spec delaunay dbg (q := q) rfl hTri hF fun _ => hD.two
  obtain ⟨q2, m2, e', e1', hloop⟩ := C69_direction_partial delaunay dbg (q := q) rfl hTri hF fun _ => hD.two
  rw [e] at e'; injection e' with e'; subst e'
  rw [e1] at e1'; injection e1' with e1'; subst e1'
  change Dual ((delaunay (sites q)).filter _) _ _ _ at hDual
  change List.Forall₂ _ ((delaunay (sites q)).filter _) _ at hN
  set tris := delaunay (sites q) with htris
  set T := tris.filter fun t => decide (Touches q t) with hTdef
  have hsub : ∀ t ∈ T, t ∈ tris := fun t ht => List.mem_of_mem_filter ht
  have hProper : ∀ t ∈ T, Proper t := fun t ht => (centre_spec dbg hTri (hsub t ht)).1
  have hF' : ∀ p, p < q.generators.length → ∃ ts gs, Fan T p ts gs ∧ ∀ k, k < gs.length → ∃ P A B, (sites q)[p]? = some P ∧ (sites q)[gs.getD k 0]? = some A ∧ (sites q)[gs.getD ((k + 1) % gs.length) 0]? = some B ∧ 0 < area2 P A B := by
    intro p hp
    obtain ⟨ts, gs, hf, hr⟩ := hD.around p hp
    exact ⟨_, gs, fan_filter (fun t _ hpt => by simpa using ⟨p, hpt, hp⟩) hf, hr⟩
  have hnl := hN.length_eq
  -- the exact places of the nodes
  have hex : ∀ k : Nat, ∃ X : V2 ℝ, ∀ t, T[k]? = some t → Equidistant q t X ∧ ∃ c, nodes[k]? = some c ∧ |(dequantize2 q c).x - X.x| < quantum cmin2 cmax2 q.length ∧ |(dequantize2 q c).y - X.y| < quantum cmin2 cmax2 q.length := by
    intro k
    by_cases hk : k < T.length
    · have hk' : k < nodes.length := by omega
      have := (List.forall₂_iff_get.1 hN).2 k hk hk'
      rw [List.get_eq_getElem, List.get_eq_getElem] at this
      obtain ⟨X, x1, _, _, x2, x3⟩ := this
      refine ⟨X, fun t ht => ?_⟩
      rw [List.getElem?_eq_getElem hk] at ht
      injection ht with ht
      subst ht
      exact ⟨x1, _, List.getElem?_eq_getElem hk', x2, x3⟩
    · refine ⟨⟨0, 0⟩, fun t ht => ?_⟩
      rw [List.getElem?_eq_none (by omega)] at ht
      cases ht
  choose V hV using hex
  have hcorner : ∀ k, ∀ x ∈ cornersOf T k, ∃ P, (sites q)[x]? = some P ∧ Nearest (sites q) P (V k) := by
    intro k x hx
    obtain ⟨t, ht, hxt⟩ := cornersOf_some hx
    exact centre_nearest hD (hsub t (List.mem_of_getElem? ht)) (hV k t ht).1 x hxt
  -- faces and directed edges
  have hface : ∀ (s : Int) (a b : Nat), directed edges s = some ((a : Int), (b : Int)) → face m (posID s) = [a, b] ∨ face m (posID s) = [b, a] := by
    intro s a b hs
    have hps : posID s = index s := by unfold posID index flip; split <;> omega
    rcases directed_index hs with hx | hx <;> obtain ⟨k, v⟩ := List.getElem?_eq_some_iff.1 hx
    · left; rw [hps]; unfold face; rw [g2]; simp [List.getD, k, v]
    · right; rw [hps]; unfold face; rw [g2]; simp [List.getD, k, v]
  have hface' : ∀ (s : Int) (x y : Nat), index s < edges.length → face m (posID s) = [x, y] → directed edges s = some ((x : Int), (y : Int)) ∨ directed edges s = some ((y : Int), (x : Int)) := by
    intro s x y hk hs
    have hps : posID s = index s := by unfold posID index flip; split <;> omega
    rw [hps] at hs
    have hend := hDual.ends _ (List.getElem_mem hk)
    unfold face at hs
    rw [g2] at hs
    simp only [List.getD, List.getElem?_map, List.getElem?_eq_getElem hk, Option.map_some, Option.getD_some, List.cons.injEq, and_true] at hs
    have hxy : edges[index s] = ((x : Int), (y : Int)) := Prod.ext (by omega) (by omega)
    unfold directed
    split
    · left
      rw [List.getElem?_eq_getElem (by unfold index at hk; rwa [if_pos ‹_›] at hk)]
      simp only [index, if_pos ‹_›] at hxy
      rw [hxy]
    · right
      rw [List.getElem?_eq_getElem (by unfold index at hk; rwa [if_neg ‹_›] at hk)]
      simp only [index, if_neg ‹_›] at hxy
      rw [hxy]; rfl
  have hcellm : ∀ p, Mesh.cell m p = cells.getD p [] := fun p => by unfold Mesh.cell; rw [g1]
  have hidx : ∀ p, p < q.generators.length → ∀ s ∈ cells.getD p [], index s < edges.length := by
    intro p hp s hs
    obtain ⟨ts, gs, hf, _⟩ := hF' p hp
    obtain ⟨us, _, _, hm⟩ := hDual.around p hp _ gs hf
    have : directed edges s ∈ (cells.getD p []).map (directed edges) := List.mem_map_of_mem hs
    rw [hm] at this
    obtain ⟨x, _, hx⟩ := List.mem_map.1 this
    rcases directed_index hx.symm with h | h <;> exact (List.getElem?_eq_some_iff.1 h).1
  refine ⟨_, m, V, e, e1, hc, ⟨?_, ?_, ?_, ?_, ?_⟩, ?_⟩
  · rw [g1]; exact hDual.cells_len
  · intro k hk
    rw [g4, ← hnl] at hk
    obtain ⟨_, c, hc1, hx, hy⟩ := hV k _ (List.getElem?_eq_getElem hk)
    exact ⟨dequantize2 q c, g3 k c hc1, hx, hy⟩
  · intro k hk
    rw [g4, ← hnl] at hk
    have hk' := List.getElem?_eq_getElem hk
    obtain ⟨A, B, C, hA, hB, hC, harea⟩ := hD.ccw _ (hsub _ (List.getElem_mem hk))
    have hcs := hcorner k
    rw [cornersOf_eq hk'] at hcs
    obtain ⟨A', a1, a2⟩ := hcs (T[k]).1 (by simp [corners])
    obtain ⟨B', b1, b2⟩ := hcs (T[k]).2.1 (by simp [corners])
    obtain ⟨C', c1, c2⟩ := hcs (T[k]).2.2 (by simp [corners])
    rw [hA] at a1; rw [hB] at b1; rw [hC] at c1
    injection a1 with a1; injection b1 with b1; injection c1 with c1
    subst a1; subst b1; subst c1
    have hAB : A ≠ B := by rintro rfl; unfold area2 at harea; linarith
    have hBC : B ≠ C := by rintro rfl; unfold area2 at harea; linarith
    have hAC : A ≠ C := by rintro rfl; unfold area2 at harea; linarith
    have mA := List.mem_of_getElem? hA
    have mB := List.mem_of_getElem? hB
    have mC := List.mem_of_getElem? hC
    have take : ∀ {i : Nat} {Q : V2 ℝ}, (sites q)[i]? = some Q → i < q.generators.length → Q ∈ (sites q).take q.generators.length := by
      intro i Q hQ hi
      refine List.mem_of_getElem? (i := i) ?_
      rw [List.getElem?_take, if_pos hi]; exact hQ
    have ht : Touches q T[k] := by
      have := List.getElem_mem hk
      simpa using (List.mem_filter.1 this).2
    obtain ⟨g, hg, hgn⟩ := ht
    simp only [corners, List.mem_cons, List.not_mem_nil, or_false] at hg
    rcases hg with rfl | rfl | rfl
    · exact ⟨A, B, C, take hA hgn, mB, mC, hAB, hBC, hAC, a2, b2, c2⟩
    · exact ⟨B, C, A, take hB hgn, mC, mA, hBC, hAC.symm, hAB.symm, b2, c2, a2⟩
    · exact ⟨C, A, B, take hC hgn, mA, mB, hAC.symm, hAB, hBC.symm, c2, a2, b2⟩
  · intro p hp
    obtain ⟨us, u1, u2, _, u4⟩ := hloop p hp
    exact ⟨us, u1, u2, u4⟩
  · intro p hp
    obtain ⟨ts, gs, hf, hr⟩ := hF' p hp
    obtain ⟨P, _, _, hP, _⟩ := hr 0 (by have := hf.three; have := hf.len; omega)
    refine ⟨P, hP, fun Y => ?_⟩
    rw [region_sides hProper hf hr hcorner hP Y]
    rw [hcellm]
    constructor
    · rintro ⟨a, b, hab, hY⟩
      obtain ⟨s, hs, hd⟩ := (hDual.sides p hp a b).2 hab
      have hsw : InTri P (V b) (V a) Y := by
        obtain ⟨x, y, x0, y0, xy, e1, e2⟩ := hY
        exact ⟨y, x, y0, x0, by linarith, by linarith, by linarith⟩
      refine ⟨s, hs, ?_⟩
      rcases hd with hd | hd
      · rcases hface s a b hd with hf | hf
        · exact ⟨a, b, hf, hY⟩
        · exact ⟨b, a, hf, hsw⟩
      · rcases hface s b a hd with hf | hf
        · exact ⟨b, a, hf, hsw⟩
        · exact ⟨a, b, hf, hY⟩
    · rintro ⟨s, hs, a, b, hf, hY⟩
      exact ⟨a, b, (hDual.sides p hp a b).1 ⟨s, hs, hface' s a b (hidx p hp s hs) hf⟩, hY⟩
  · obtain ⟨p, hp, a, b, hab, honly⟩ := outer_neighbour hn hProper hF'
    obtain ⟨s, hs, hd⟩ := (hDual.sides p hp a b).2 hab
    have hk := hidx p hp s hs
    have hpair : edges[index s]? = some ((a : Int), (b : Int)) ∨ edges[index s]? = some ((b : Int), (a : Int)) := by
      rcases hd with hd | hd <;> rcases directed_index hd with hx | hx <;> simp only [hx] <;> simp
    have hle : cells.flatten.countP (fun x => decide (index x = index s)) ≤ 1 := by
      have hone : ∀ p', (cells.getD p' []).countP (fun x => decide (index x = index s)) ≤ 1 := by
        intro p'
        by_cases hp' : p' < q.generators.length
        · have := hDual.cell_once p' hp'
          have := List.nodup_iff_count_le_one.1 this (index s)
          rwa [List.count, List.countP_map] at this
        · have : cells.getD p' [] = [] := by
            have := hDual.cells_len
            simp [List.getD, List.getElem?_eq_none (show cells.length ≤ p' by omega)]
          rw [this]; simp
      refine countP_flatten_le_one (x := p) hone fun p' hpos => ?_
      have hp' : p' < q.generators.length := by
        by_contra hc
        have : cells.getD p' [] = [] := by
          have := hDual.cells_len
          simp [List.getD, List.getElem?_eq_none (show cells.length ≤ p' by omega)]
        rw [this] at hpos; simp at hpos
      obtain ⟨s', hs', hi⟩ := List.countP_pos_iff.1 hpos
      rw [decide_eq_true_eq] at hi
      apply honly p' hp'
      rw [← hDual.sides p' hp']
      refine ⟨s', hs', ?_⟩
      rw [← hi] at hpair
      unfold directed
      unfold index at hpair
      split at hpair
      · rw [if_pos ‹_›]; exact hpair
      · rw [if_neg ‹_›]
        rcases hpair with hx | hx <;> rw [hx] <;> simp
    have hge := (hDual.uses (index s) hk).1
    have hlt : index s < m.faces.length := by rw [g2]; simpa using hk
    refine ⟨index s, hlt, by rw [g5 _ hlt]; omega, ?_⟩
    unfold face
    rw [g2]
    simp [List.getD, hk]

end Verif.Tri
