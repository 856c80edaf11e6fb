import Verif.Props.Voronoi
import Verif.Props.Unique
/- C72: `tessellateDegenerate`. -/
namespace Verif.Tri
open Verif Verif.Mesh Verif.Internal Verif.Geom Verif.Readout Verif.Driver Verif.Hash Verif.Points

theorem mapM_of {α β : Type} {f : α → Res β} {R : α → β → Prop} : ∀ {l : List α}, (∀ x ∈ l, ∃ y, f x = .ok y ∧ R x y) → ∃ ys, l.mapM f = .ok ys ∧ List.Forall₂ R l ys
  | [], _ => ⟨[], rfl, .nil⟩
  | x :: l, h => by
    obtain ⟨y, e, hy⟩ := h x (List.mem_cons_self ..)
    obtain ⟨ys, es, hys⟩ := mapM_of (l := l) fun z hz => h z (List.mem_cons_of_mem _ hz)
    refine ⟨y :: ys, ?_, .cons hy hys⟩
    rw [List.mapM_cons, e, Res.ok_bind, es]; rfl

theorem map_toV (l : List (V2 ℝ)) : (l.map ofV).map toV = l := by
  rw [List.map_map, show toV ∘ ofV = id from rfl, List.map_id]

theorem box_in {procs : List (List (ℝ × ℝ))} {lx hx ly hy : ℝ} (hbox : IsBox 2 (procs.flatten.map fun p => [p.1, p.2]) [(lx, hx), (ly, hy)]) {ps : List (ℝ × ℝ)} (hps : ps ∈ procs) :
    ∀ p ∈ ps.map toV, inBox ⟨⟨lx, ly⟩, ⟨hx, hy⟩⟩ p := by
  intro p hp
  obtain ⟨x, hx', rfl⟩ := List.mem_map.1 hp
  have hm : [x.1, x.2] ∈ procs.flatten.map fun p => [p.1, p.2] := List.mem_map.2 ⟨x, List.mem_flatten.2 ⟨ps, hps, hx'⟩, rfl⟩
  exact ⟨hbox.1.2 _ hm 0 (lx, hx) x.1 rfl rfl, hbox.1.2 _ hm 1 (ly, hy) x.2 rfl rfl⟩

theorem box_nested {procs : List (List (ℝ × ℝ))} {points : List (ℝ × ℝ)} (hmem : points ∈ procs) (hne : points ≠ []) {lx hx ly hy : ℝ}
    (hbox : IsBox 2 (procs.flatten.map fun p => [p.1, p.2]) [(lx, hx), (ly, hy)]) : nested ⟨⟨lx, ly⟩, ⟨hx, hy⟩⟩ ⟨⟨lx, ly⟩, ⟨hx, hy⟩⟩ := by
  obtain ⟨x, hx'⟩ := List.exists_mem_of_ne_nil points hne
  obtain ⟨⟨a, b⟩, c, d⟩ := box_in hbox hmem _ (List.mem_map_of_mem hx')
  exact ⟨⟨le_refl _, le_refl _⟩, ⟨le_refl _, le_refl _⟩, a.trans b, c.trans d⟩

/-- C72: `tessellateDegenerate` without boundary returns the Voronoi mesh of the first generator of each class of generators with the same hash, and for every generator the number of the cell of
its class. All processes reduce their generators in this way. Missing: generators with the same hash need not be close to each other, see `C72_merged_fails`; that by the language standard all is
undefined, see `C21_undefined_fails`; and what is missing in C70. -/
theorem C72_degenerate_partial (shift : Key → Nat → Key) (delaunay : List (V2 ℝ) → List (Nat × Nat × Nat)) (dbg : Bool) {big eps tol : ℝ} (he : 0 < eps) {procs : List (List (ℝ × ℝ))} {points : List (ℝ × ℝ)}
    (hmem : points ∈ procs) (hne : points ≠ []) (hbig : ∀ ps ∈ procs, ∀ p ∈ ps, (-big ≤ p.1 ∧ p.1 ≤ big) ∧ -big ≤ p.2 ∧ p.2 ≤ big) {lx hx ly hy : ℝ}
    (hbox : IsBox 2 (procs.flatten.map fun p => [p.1, p.2]) [(lx, hx), (ly, hy)]) {b : HBox} (hb : b = ⟨⟨lx, ly⟩, ⟨hx, hy⟩⟩) :
    ∃ us u ix, List.Forall₂ (fun ps v => ∃ jx, FirstOf (sameHash eps tol b) (ps.map toV) (v.map toV) jx) procs us ∧ u ∈ us ∧ FirstOf (sameHash eps tol b) (points.map toV) (u.map toV) ix ∧
      ∀ {ax bx ay by' L : ℝ}, IsBox 2 (us.flatten.map fun p => [p.1, p.2]) [(ax, bx), (ay, by')] → L = max (bx - ax) (by' - ay) → 0 < L →
        ∀ S, S = framedSites (ax - 2 * L) (ay - 2 * L) (5 * L / 2147483647) u → IsDelaunay S u.length (delaunay S) →
          ∃ m V, tessellateDegenerateFree (wrapping shift) (triangleTess delaunay dbg) dbg big eps tol procs points = .ok (m, ix) ∧ Consistent 2 m ∧ BoundaryExact m ∧
            VoronoiMesh S u.length (5 * L / 2147483647) V m ∧ ∀ i ∈ ix, i < m.cells.length := by
  have hn : nested b b := hb ▸ box_nested hmem hne hbox
  have hin : ∀ ps ∈ procs, ∀ p ∈ ps.map toV, inBox b p := fun ps hps => hb ▸ box_in hbox hps
  obtain ⟨rs, ers, hrs⟩ := mapM_of (l := procs) (f := fun ps => uniquePoints2 (wrapping shift) dbg eps tol b (ps.map toV)) (R := fun ps r => FirstOf (sameHash eps tol b) (ps.map toV) r.1 r.2 ∧
      uniquePoints2 (wrapping shift) dbg eps tol b (ps.map toV) = .ok r) (by
    intro ps hps
    obtain ⟨v, jx, e, hf, _⟩ := C21_partial shift dbg (tol := tol) he hn (hin ps hps)
    exact ⟨(v, jx), e, hf, e⟩)
  obtain ⟨v, ix, ev, hf, _⟩ := C21_partial shift dbg (tol := tol) he hn (hin points hmem)
  have hv : (v, ix) ∈ rs := by
    have : ∀ {l : List (List (ℝ × ℝ))} {rs : List (List (V2 ℝ) × List Nat)}, List.Forall₂ (fun ps r => FirstOf (sameHash eps tol b) (ps.map toV) r.1 r.2 ∧
      uniquePoints2 (wrapping shift) dbg eps tol b (ps.map toV) = .ok r) l rs → points ∈ l → (v, ix) ∈ rs := by
      intro l rs h
      induction h with
      | nil => intro h; cases h
      | cons h1 _ ih =>
        intro hm
        rcases List.mem_cons.1 hm with rfl | hm
        · rw [ev] at h1; injection h1.2 with h1; rw [h1]; exact List.mem_cons_self ..
        · exact List.mem_cons_of_mem _ (ih hm)
    exact this hrs hmem
  refine ⟨rs.map fun x => x.1.map ofV, v.map ofV, ix, ?_, List.mem_map.2 ⟨_, hv, rfl⟩, by rw [map_toV]; exact hf, ?_⟩
  · rw [List.forall₂_map_right_iff]
    refine hrs.imp fun ps r h => ⟨r.2, ?_⟩
    rw [map_toV]; exact h.1
  · intro ax bx ay by' L hb' hL hL0 S hS hdel
    have hu : v.map ofV ≠ [] := by
      intro h
      have hv0 : v = [] := by simpa using h
      obtain ⟨x, hx'⟩ := List.exists_mem_of_ne_nil points hne
      obtain ⟨i, hi⟩ := List.getElem?_of_mem (List.mem_map_of_mem (f := toV) hx')
      obtain ⟨k, r, _, h2, _⟩ := hf.maps i _ hi
      rw [hv0] at h2; simp at h2
    have hsub : ∀ us ∈ rs.map (fun x => x.1.map ofV), ∀ p ∈ us, ∃ ps ∈ procs, p ∈ ps := by
      have key : ∀ {l : List (List (ℝ × ℝ))} {rs : List (List (V2 ℝ) × List Nat)}, List.Forall₂ (fun ps r => FirstOf (sameHash eps tol b) (ps.map toV) r.1 r.2 ∧
        uniquePoints2 (wrapping shift) dbg eps tol b (ps.map toV) = .ok r) l rs → ∀ us ∈ rs.map (fun x => x.1.map ofV), ∀ p ∈ us, ∃ ps ∈ l, p ∈ ps := by
        intro l rs h
        induction h with
        | nil => intro us h; cases h
        | @cons ps r l rs h1 _ ih =>
          intro us hm p hp
          rcases List.mem_cons.1 (show us ∈ _ :: _ from hm) with rfl | hm
          · obtain ⟨w, hw, rfl⟩ := List.mem_map.1 hp
            obtain ⟨k, hk⟩ := List.getElem?_of_mem hw
            obtain ⟨i, hi, _⟩ := h1.1.first k w hk
            obtain ⟨z, hz, hzw⟩ := List.mem_map.1 (List.mem_of_getElem? hi)
            refine ⟨ps, List.mem_cons_self .., ?_⟩
            rw [← hzw]; exact hz
          · obtain ⟨ps', a, b⟩ := ih us hm p hp
            exact ⟨ps', List.mem_cons_of_mem _ a, b⟩
      exact key hrs
    obtain ⟨m, V, e, h1, h2, h3, _⟩ := C70_tessellate_partial delaunay dbg (big := big) (procs := rs.map fun x => x.1.map ofV) (points := v.map ofV) (List.mem_map.2 ⟨_, hv, rfl⟩) hu
      (fun us hus p hp => by obtain ⟨ps, a, c⟩ := hsub us hus p hp; exact hbig ps a p c) hb' hL hL0 hS hdel
    refine ⟨m, V, ?_, h1, h2, h3, ?_⟩
    · unfold tessellateDegenerateFree
      rw [global_box dbg hmem hne hbig hbox, Res.ok_bind]
      simp only [show rd [(lx, hx), (ly, hy)] 0 = .ok (lx, hx) from rfl, show rd [(lx, hx), (ly, hy)] 1 = .ok (ly, hy) from rfl, Res.ok_bind, ← hb]
      rw [ers, Res.ok_bind, ev, Res.ok_bind, e]; rfl
    · intro i hi
      rw [h3.cells_len]
      obtain ⟨k, hk⟩ := List.getElem?_of_mem hi
      have hkl : k < (points.map toV).length := by rw [← hf.length]; exact (List.getElem?_eq_some_iff.1 hk).1
      obtain ⟨i', r, e1, e2, _⟩ := hf.maps k _ (List.getElem?_eq_getElem hkl)
      rw [hk] at e1; injection e1 with e1; subst e1
      have := (List.getElem?_eq_some_iff.1 e2).1
      simpa using this

/-- Two generators: both stay, and they get two cells. -/
example : ∃ m, tessellateDegenerateFree (wrapping fun k _ => k) (triangleTess (fun _ => pairTris) true) true 1e10 (1 / 2) 1 [[(0, 0), (2147483647, 0)]] [(0, 0), (2147483647, 0)] = .ok (m, [0, 1]) ∧ m.cells.length = 2 := by
  obtain ⟨us, u, ix, h1, h2, h3, h4⟩ := C72_degenerate_partial (fun k _ => k) (fun _ => pairTris) true (big := 1e10) (eps := 1 / 2) (tol := 1) (by norm_num) (procs := [[(0, 0), (2147483647, 0)]])
    (points := [(0, 0), (2147483647, 0)]) (by simp) (by simp) (by norm_num; rintro a b (⟨rfl, rfl⟩ | ⟨rfl, rfl⟩) <;> norm_num) pair_box rfl
  have hd : List.Pairwise (fun p q => ¬ sameHash (1 / 2) 1 ⟨⟨0, 0⟩, ⟨2147483647, 0⟩⟩ p q) (List.map toV [(0, 0), (2147483647, 0)]) := by
    simp only [List.map_cons, List.map_nil, toV, List.pairwise_cons, List.mem_cons, List.not_mem_nil, or_false, forall_eq, false_imp_iff, implies_true, List.Pairwise.nil, and_true]
    rintro ⟨h, _⟩
    simp only [cellIx, width, max2] at h
    norm_num at h
  have sy : ∀ (p q : V2 ℝ), sameHash (1 / 2) 1 ⟨⟨0, 0⟩, ⟨2147483647, 0⟩⟩ p q → sameHash (1 / 2) 1 ⟨⟨0, 0⟩, ⟨2147483647, 0⟩⟩ q p := by rintro p q ⟨a, b⟩; exact ⟨a.symm, by omega⟩
  have rf : ∀ (p : V2 ℝ), sameHash (1 / 2) 1 ⟨⟨0, 0⟩, ⟨2147483647, 0⟩⟩ p p := fun p => ⟨rfl, by omega⟩
  obtain ⟨e1, e2⟩ := h3.unchanged sy rf hd
  have inj : ∀ l l' : List (ℝ × ℝ), l.map toV = l'.map toV → l = l' := by
    intro l l' h
    have := congrArg (List.map ofV) h
    simpa [List.map_map, show ofV ∘ toV = id from rfl] using this
  have eu := inj _ _ e1
  obtain ⟨v, hv, hnil⟩ : ∃ v, us = [v] ∧ v = [(0, 0), (2147483647, 0)] := by
    cases h1 with
    | cons h hn =>
      cases hn
      obtain ⟨jx, hj⟩ := h
      exact ⟨_, rfl, inj _ _ (hj.unchanged sy rf hd).1⟩
  subst hnil; subst hv; subst eu; subst e2
  obtain ⟨m, V, e, _, _, hv, _⟩ := h4 pair_box (L := 2147483647) (by norm_num) (by norm_num) _ rfl pair_delaunay
  exact ⟨m, e, hv.cells_len⟩

/-- C72 fails: of three generators on a vertical line, the middle one may be taken for the same as the lowest, however far away. `h` is the height of the line; the middle generator is an even number of
`2147483647`ths of it above the lowest. The middle generator then gets the cell of the lowest, and the mesh is that of the other two. -/
theorem C72_merged_fails (shift : Key → Nat → Key) (quantized : QT → Res QT) (dbg : Bool) {big eps tol : ℝ} (he : 0 < eps) {x y h : ℝ} (hh : max tol eps ≤ h / 2147483647) (hbig : (-big ≤ x ∧ x ≤ big) ∧ -big ≤ y ∧ y + h ≤ big)
    {k : Nat} (hk : 2 * k ≤ 2147483647) :
    tessellateDegenerateFree (wrapping shift) quantized dbg big eps tol [[(x, y), (x, y + (2 * k : Nat) * (h / 2147483647)), (x, y + h)]] [(x, y), (x, y + (2 * k : Nat) * (h / 2147483647)), (x, y + h)] =
      (tessellateFree quantized dbg big [[(x, y), (x, y + h)]] [(x, y), (x, y + h)]).bind fun m => .ok (m, [0, 0, 1]) := by
  have hd : 0 < h / 2147483647 := lt_of_lt_of_le (lt_of_lt_of_le he (le_max_right _ _)) hh
  have h0 : 0 < h := by by_contra hc; have := div_nonpos_of_nonpos_of_nonneg (not_lt.1 hc) (by norm_num : (0 : ℝ) ≤ 2147483647); linarith
  have hk' : ((2 * k : Nat) : ℝ) * (h / 2147483647) ≤ h := by
    have : ((2 * k : Nat) : ℝ) ≤ 2147483647 := by exact_mod_cast hk
    rw [mul_div_assoc', div_le_iff₀ (by norm_num), mul_comm]
    exact mul_le_mul_of_nonneg_left this h0.le
  have hk0 : 0 ≤ ((2 * k : Nat) : ℝ) * (h / 2147483647) := by positivity
  set z := y + ((2 * k : Nat) : ℝ) * (h / 2147483647) with hz
  have hbox : IsBox 2 (([[(x, y), (x, z), (x, y + h)]] : List (List (ℝ × ℝ))).flatten.map fun p => [p.1, p.2]) [(x, x), (y, y + h)] := by
    refine ⟨⟨rfl, ?_⟩, ?_⟩
    · intro q hq j b c hb hc
      have hj : j = 0 ∨ j = 1 := by
        have := (List.getElem?_eq_some_iff.1 hb).1
        simp only [List.length_cons, List.length_nil] at this; omega
      simp only [List.flatten_cons, List.flatten_nil, List.append_nil, List.map_cons, List.map_nil, List.mem_cons, List.not_mem_nil, or_false] at hq
      rcases hj with rfl | rfl <;> rcases hq with rfl | rfl | rfl <;> (injection hb with hb; injection hc with hc; subst hb; subst hc; dsimp only; constructor <;> linarith)
    · intro j b hb
      have hj : j = 0 ∨ j = 1 := by
        have := (List.getElem?_eq_some_iff.1 hb).1
        simp only [List.length_cons, List.length_nil] at this; omega
      rcases hj with rfl | rfl <;> (injection hb with hb; subst hb; simp)
  have eb := global_box dbg (big := big) (procs := [[(x, y), (x, z), (x, y + h)]]) (points := [(x, y), (x, z), (x, y + h)]) (by simp) (by simp) (by
    intro ps hps p hp
    simp only [List.mem_cons, List.not_mem_nil, or_false] at hps
    subst hps
    simp only [List.mem_cons, List.not_mem_nil, or_false] at hp
    rcases hp with rfl | rfl | rfl <;> (refine ⟨hbig.1, ?_, ?_⟩ <;> dsimp only <;> linarith [hbig.2.1, hbig.2.2])) hbox
  set b : HBox := ⟨⟨x, y⟩, ⟨x, y + h⟩⟩ with hb
  have hn : nested b b := ⟨⟨le_refl _, le_refl _⟩, ⟨le_refl _, le_refl _⟩, le_refl _, by simp only [hb]; linarith⟩
  have hh' : (b.hi.y - b.lo.y) / (2147483647 : ℝ) = h / 2147483647 := by simp only [hb]; ring
  obtain ⟨key, e1, e2⟩ := C37_collision_fails shift dbg (tol := tol) he (b := b) (x := x) (le_refl _) (by rw [hh']; exact hh) (le_refl _) (le_refl _) hk
  rw [hh', show b.lo.y + ((2 * k : Nat) : ℝ) * (h / 2147483647) = z from rfl] at e2
  change hashPosition2 (wrapping shift) dbg eps tol b b ⟨x, y⟩ = _ at e1
  have i1 : inBox b ⟨x, y⟩ := ⟨⟨le_refl _, le_refl _⟩, le_refl _, by simp only [hb]; linarith⟩
  have i3 : inBox b ⟨x, y + h⟩ := ⟨⟨le_refl _, le_refl _⟩, by simp only [hb]; linarith, le_refl _⟩
  have hw : width max2 eps tol y (y + h) = h / 2147483647 := by
    unfold width
    rw [show ((max2 : Int) : ℝ) = 2147483647 by norm_num [max2], show y + h - y = h by ring]
    exact max_eq_left hh
  obtain ⟨key3, p3, e3, u3, _⟩ := C37_unhash_partial shift dbg (tol := tol) he hn i3
  obtain ⟨key1, p1, e1', u1, _⟩ := C37_unhash_partial shift dbg (tol := tol) he hn i1
  rw [e1] at e1'; injection e1' with e1'; subst e1'
  have hkey : key ≠ key3 := by
    intro hc
    subst hc
    rw [hash_inner shift dbg he hn i1] at e1
    rw [hash_inner shift dbg he hn i3, ← e1] at e3
    injection e3 with e3
    have := ((packed_inj (cellX_lt he i3) (cellX_lt he i1)).1 e3).2
    have c1 := (cell_cast (tol := tol) he i1).2
    have c3 := (cell_cast (tol := tol) he i3).2
    have f1 : cellIx max2 eps tol b.lo.y b.hi.y (⟨x, y⟩ : V2 ℝ).y = 0 := by
      simp only [hb]; unfold cellIx; rw [hw, sub_self, zero_div, Int.floor_zero]
    have f3 : cellIx max2 eps tol b.lo.y b.hi.y (⟨x, y + h⟩ : V2 ℝ).y = 2147483647 := by
      simp only [hb]; unfold cellIx
      rw [hw, show y + h - y = h by ring, div_div_eq_mul_div, mul_div_assoc, mul_div_cancel₀ _ h0.ne']
      exact_mod_cast Int.floor_intCast (R := ℝ) 2147483647
    omega
  have eu : uniquePoints2 (wrapping shift) dbg eps tol b ([(x, y), (x, z), (x, y + h)].map toV) = .ok ([⟨x, y⟩, ⟨x, y + h⟩], [0, 0, 1]) := by
    unfold uniquePoints2
    simp only [List.map_cons, List.map_nil, toV]
    have hp : ∀ (f : Unit → Res (List (V2 ℝ) × List Nat)), Res.bind (pure ()) f = f () := fun _ => rfl
    have hne' : (key3 == key) = false := by simpa using Ne.symm hkey
    simp [uniqueLoop, e1, e2, e3, u1, u3, List.lookup, hne', hp]
  unfold tessellateDegenerateFree
  rw [eb, Res.ok_bind]
  simp only [show rd [(x, x), (y, y + h)] 0 = .ok (x, x) from rfl, show rd [(x, x), (y, y + h)] 1 = .ok (y, y + h) from rfl, Res.ok_bind, ← hb]
  rw [List.mapM_cons, List.mapM_nil, eu]
  rfl

/-- A line of length 2147483647 with a generator at 2000000000. -/
example (quantized : QT → Res QT) : tessellateDegenerateFree (wrapping fun k _ => k) quantized false 1e10 (1 / 2) 1 [[(0, 0), (0, 0 + (2 * 1000000000 : Nat) * (2147483647 / 2147483647)), (0, 0 + 2147483647)]]
    [(0, 0), (0, 0 + (2 * 1000000000 : Nat) * (2147483647 / 2147483647)), (0, 0 + 2147483647)] = (tessellateFree quantized false 1e10 [[(0, 0), (0, 0 + 2147483647)]] [(0, 0), (0, 0 + 2147483647)]).bind fun m => .ok (m, [0, 0, 1]) :=
  C72_merged_fails _ quantized false (by norm_num) (by norm_num) (by norm_num) (by norm_num)
end Verif.Tri
