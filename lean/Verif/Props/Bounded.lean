import Verif.Proofs.Bounded
import Verif.Props.Degenerate
import Verif.Props.PLC
/- C73: `tessellate` inside a boundary. -/
namespace Verif.Driver
open Verif Verif.Mesh Verif.Internal Verif.Geom Verif.Readout Verif.Snap

theorem floor_ix {length xmin x : ℝ} {k : Int} (hl : 0 < length) (h0 : 0 ≤ x - dequantize1 cmin2 cmax2 length xmin k) (h1 : x - dequantize1 cmin2 cmax2 length xmin k < length / 2147483647) :
    k = -1073741824 + ⌊(x - xmin) / (length / 2147483647)⌋ := by
  have q0 := quantum_pos Tri.grid2 hl
  unfold dequantize1 at h0 h1
  rw [quantum2] at q0 h0 h1
  have : ⌊(x - xmin) / (length / 2147483647)⌋ = k - cmin2 := by
    rw [Int.floor_eq_iff]
    constructor
    · rw [le_div_iff₀ q0]; linarith
    · rw [div_lt_iff₀ q0]; linarith
  rw [this]; unfold cmin2; ring

theorem quantize_ix {length xmin x : ℝ} (hl : 0 < length) (h0 : xmin ≤ x) (h1 : x ≤ xmin + length) :
    quantize1 cmin2 cmax2 length xmin x = .ok (-1073741824 + ⌊(x - xmin) / (length / 2147483647)⌋) := by
  obtain ⟨k, e, _, _, d1, d2⟩ := C36_quantize Tri.grid2 hl h0 h1
  rw [quantum2] at d2
  rw [e]
  exact congrArg Res.ok (floor_ix (k := k) (x := x) (xmin := xmin) hl (by linarith) (by linarith))

theorem vtx_mem {verts : List ℝ} {k : Nat} (h : k < verts.length / 2) : [(vtx verts (k : Int)).x, (vtx verts (k : Int)).y] ∈ pointsOf 2 verts := by
  unfold pointsOf
  refine List.mem_map.2 ⟨k, List.mem_range.2 h, ?_⟩
  have h1 : 2 * k + 1 < verts.length := by omega
  have h0 : 2 * k < verts.length := by omega
  have : List.drop (2 * k) verts = verts[2 * k] :: verts[2 * k + 1] :: List.drop (2 * k + 2) verts := by
    rw [List.drop_eq_getElem_cons h0, List.drop_eq_getElem_cons h1]
  have e : vtx verts (k : Int) = ⟨verts[2 * k], verts[2 * k + 1]⟩ := by simp [vtx, List.getD, h0, h1]
  rw [e, this]; rfl

theorem plc_ring (dbg : Bool) {q : QT} {verts : List ℝ} (hl : 0 < q.length)
    (hin : ∀ k, k < verts.length / 2 → (q.xmin ≤ (vtx verts (k : Int)).x ∧ (vtx verts (k : Int)).x ≤ q.xmin + q.length) ∧ q.ymin ≤ (vtx verts (k : Int)).y ∧ (vtx verts (k : Int)).y ≤ q.ymin + q.length) :
    ∀ {fs : List (List Int)}, (∀ f ∈ fs, f.length = 2 ∧ ∀ i ∈ f, 0 ≤ i ∧ i < ((verts.length / 2 : Nat) : Int)) →
      plcRing dbg q verts fs = .ok (fs.map fun f => gridIx q.xmin q.ymin (q.length / 2147483647) (segA verts f))
  | [], _ => rfl
  | f :: fs, h => by
    have ih := plc_ring dbg hl hin (fs := fs) fun g hg => h g (List.mem_cons_of_mem _ hg)
    obtain ⟨h2, hr⟩ := h f (List.mem_cons_self ..)
    unfold plcRing at ih ⊢
    rw [List.mapM_cons, ih]
    match f, h2 with
    | [a, b], _ =>
      obtain ⟨a0, a1⟩ := hr a (by simp)
      have ha : a.toNat < verts.length / 2 := by omega
      obtain ⟨⟨x1, x2⟩, y1, y2⟩ := hin a.toNat ha
      rw [Res.assert_true dbg (show [a, b].length = 2 from rfl), Res.ok_bind, rd_eq_ok.2 (show [a, b][0]? = some a from rfl), Res.ok_bind, if_neg (by omega), rdV2_vtx ha, Res.ok_bind, quantize_ix hl x1 x2, Res.ok_bind, quantize_ix hl y1 y2, Res.ok_bind]
      have hs : segA verts [a, b] = vtx verts ((a.toNat : Nat) : Int) := by
        unfold segA; rw [Int.toNat_of_nonneg a0]; rfl
      rw [List.map_cons, hs]; rfl

theorem mapM_map {α β : Type} {f : α → Res β} {g : α → β} : ∀ {l : List α}, (∀ x ∈ l, f x = .ok (g x)) → l.mapM f = .ok (l.map g)
  | [], _ => rfl
  | x :: l, h => by
    rw [List.mapM_cons, h x (List.mem_cons_self ..), Res.ok_bind, mapM_map (l := l) fun y hy => h y (List.mem_cons_of_mem _ hy)]; rfl

theorem start_of {q : QT} {k : Int} {p : P2} (h : (side (q.nodes.map fun p => (p.x, p.y)) q.edges k).map Prod.fst = some p) : startNode q k = .ok p := by
  obtain ⟨t, ht, rfl⟩ := Option.map_eq_some_iff.1 h
  unfold side at ht
  split at ht
  · rename_i a b hd
    split at ht
    · rename_i hab
      have hd' : ∃ e, q.edges[posID k]? = some e ∧ (if k < 0 then e.2 else e.1) = a := by
        unfold directed at hd
        split at hd
        · rename_i h0
          exact ⟨_, by rw [← hd]; congr 1; unfold posID; rw [if_pos h0], by rw [if_neg (by omega)]⟩
        · rename_i h0
          obtain ⟨e, h1, h2⟩ := Option.map_eq_some_iff.1 hd
          refine ⟨e, by rw [← h1]; congr 1; unfold posID flip; rw [if_neg h0], ?_⟩
          rw [if_pos (by omega)]; exact congrArg Prod.fst h2
      obtain ⟨e, he, hea⟩ := hd'
      rw [List.getElem?_map, List.getElem?_map] at ht
      cases hna : q.nodes[a.toNat]? with
      | none => rw [hna] at ht; simp at ht
      | some n =>
        cases hnb : q.nodes[b.toNat]? with
        | none => rw [hna, hnb] at ht; simp at ht
        | some n' =>
          rw [hna, hnb] at ht
          have : ((n.x, n.y), (n'.x, n'.y)) = t := by simpa using ht
          unfold startNode
          rw [rd_eq_ok.2 he, Res.ok_bind]
          dsimp only
          rw [hea, if_neg (by omega), rd_eq_ok.2 hna, ← this]; rfl
    · simp at ht
  · simp at ht

theorem cell_ring {q : QT} : ∀ {c : List Int} {poly : List P2}, c.map (fun k => (side (q.nodes.map fun p => (p.x, p.y)) q.edges k).map Prod.fst) = poly.map some → cellRing q c = .ok poly
  | [], [], _ => rfl
  | [], _ :: _, h => by simp at h
  | _ :: _, [], h => by simp at h
  | k :: c, p :: poly, h => by
    simp only [List.map_cons, List.cons.injEq] at h
    have ih := cell_ring (q := q) h.2
    unfold cellRing at ih ⊢
    rw [List.mapM_cons, start_of h.1, Res.ok_bind, ih]; rfl

theorem vtx_flat {α : Type} {X Y : α → ℝ} : ∀ {l : List α} {n : Nat} {a : α}, l[n]? = some a → vtx (l.flatMap fun p => [X p, Y p]) (n : Int) = ⟨X a, Y a⟩
  | [], n, a, h => by simp at h
  | b :: l, 0, a, h => by
    obtain rfl : b = a := by simpa using h
    simp [vtx]
  | b :: l, n + 1, a, h => by
    have ih := vtx_flat (X := X) (Y := Y) (l := l) (n := n) (a := a) (by simpa using h)
    rw [← ih]
    unfold vtx
    simp only [Int.toNat_natCast, List.flatMap_cons]
    rw [show 2 * (n + 1) = 2 * n + 2 by ring]
    simp [List.getD]

theorem flat_len {α : Type} {X Y : α → ℝ} : ∀ {l : List α}, (l.flatMap fun p => [X p, Y p]).length = 2 * l.length
  | [] => rfl
  | b :: l => by rw [List.flatMap_cons, List.length_append, flat_len (l := l)]; simp; omega

theorem deq_spot {length x : ℝ} (k : Int) : dequantize1 cmin2 cmax2 length x k = x + (k + 1073741824) * (length / 2147483647) := by
  unfold dequantize1; rw [quantum2]; unfold cmin2; push_cast; ring

theorem dist_lt {a b : V2 ℝ} {d : ℝ} (hx : |a.x - b.x| ≤ 5 * d) (hy : |a.y - b.y| ≤ 5 * d) (hd : 0 < d) : dist2 a b < 8 * d := by
  unfold dist2 sq2
  rw [Real.sqrt_lt' (by linarith)]
  have h1 := sq_le_sq' (by linarith [abs_nonneg (a.x - b.x)]) hx
  have h2 := sq_le_sq' (by linarith [abs_nonneg (a.y - b.y)]) hy
  rw [sq_abs] at h1 h2
  nlinarith

/-- A call of `tessellate` inside a PLC. `[lx, hx] × [ly, hy]` is the box of the PLC, `(x, y)` and `u` give the grid, `polys` are the cells that the tessellator makes without boundary, on the grid, and
`rings` are their intersections with the boundary as Boost.Polygon returns them. -/
structure Call (quantized : QT → Res QT) (boost : Boost) (dbg : Bool) (big degeneracy L x y u : ℝ) (points : List (ℝ × ℝ)) (verts : List ℝ) (plc : Mesh.PLC) (polys rings : List (List P2)) : Prop where
  some : points ≠ []
  even : 2 ∣ verts.length
  range : ∀ v ∈ verts, -big ≤ v ∧ v ≤ big
  /-- The generators are in the box of the PLC. -/
  box : ∃ lx hx ly hy, IsBox 2 (pointsOf 2 verts) [(lx, hx), (ly, hy)] ∧ L = max (hx - lx) (hy - ly) ∧ (∀ p ∈ points, lx ≤ p.1 ∧ p.1 ≤ hx ∧ ly ≤ p.2 ∧ p.2 ≤ hy) ∧ x = lx - 2 * L ∧ y = ly - 2 * L
  size : 0 < L
  step : u = 5 * L / 2147483647
  facets : plc.facets ≠ []
  good : GoodFacets (verts.length / 2) verts (allFacets plc)
  tol_lt : 4 * degeneracy * L < big
  size_lt : 8 * L + 1 < big
  count : polys.length = points.length
  /-- The tessellator makes the cells `polys`: they are the start nodes of the sides of its cells. -/
  cells : ∀ q, boundaryQT dbg big [verts] points = .ok q → ∃ N E C, quantized q = .ok { q with nodes := N, edges := E, cellEdges := C } ∧
    List.Forall₂ (fun c poly => c.map (fun k => (side (N.map fun p => (p.x, p.y)) E k).map Prod.fst) = poly.map Option.some) C polys
  /-- The intersection of every cell with the boundary is one polygon. -/
  inter : List.Forall₂ (fun poly r => boost.inter poly (plc.facets.map fun f => gridIx x y u (segA verts f)) (plc.holes.map fun h => h.map fun f => gridIx x y u (segA verts f)) = [r]) polys rings
  /-- It contains its generator. -/
  inside : ∀ (i : Nat) (r : List P2) (p : ℝ × ℝ), rings[i]? = Option.some r → points[i]? = Option.some p → boost.contains r (gridIx x y u ⟨p.1, p.2⟩) = true
  rings : GoodRings rings

theorem bounded_core {quantized : QT → Res QT} {boost : Boost} {dbg : Bool} {big degeneracy L x y u : ℝ} {points : List (ℝ × ℝ)} {verts : List ℝ} {plc : Mesh.PLC} {polys rings : List (List P2)}
    (h : Call quantized boost dbg big degeneracy L x y u points verts plc polys rings) :
    verts ≠ [] ∧ IsTol degeneracy verts (4 * degeneracy * L) ∧ ∃ (m : Tess ℝ) (bf bn : List Nat) (f : P2 → P2),
      tessellateIn quantized boost dbg big degeneracy points verts plc = ((snap2 dbg big degeneracy m.nodes bn verts plc).bind fun ns => .ok { m with nodes := ns, boundaryFaces := bf, boundaryNodes := bn }) ∧
      (∀ i ∈ bn, i < m.nodes.length / 2) ∧ (∀ i ∈ bn, ∃ s, OnPLC verts plc s ∧ dist2 (vtx m.nodes (i : Int)) s + 1 / 2 * (1 / 10 ^ 10) < big) ∧ m.cells.length = points.length ∧ Merges f rings ∧
      (∀ p, Outer f rings p → ∃ i ∈ bn, vtx m.nodes (i : Int) = gridSpot x y u p) ∧ (∀ i ∈ bn, ∃ p, Outer f rings p ∧ vtx m.nodes (i : Int) = gridSpot x y u p) ∧
      ∀ ns, ns.length = m.nodes.length → Consistent 2 { m with nodes := ns, boundaryFaces := bf, boundaryNodes := bn } ∧ BoundaryExact { m with nodes := ns, boundaryFaces := bf, boundaryNodes := bn } ∧
      (∀ (i : Nat) (r : List P2), rings[i]? = some r → (Mesh.cell { m with nodes := ns, boundaryFaces := bf, boundaryNodes := bn } i).map
        (fun s => (turned { m with nodes := ns, boundaryFaces := bf, boundaryNodes := bn } s).map fun n => vtx m.nodes (n : Int)) = (moved f r).map fun t => [gridSpot x y u t.1, gridSpot x y u t.2]) := by
  obtain ⟨hne, h2, hr, ⟨lx, hx, ly, hy, hbox, hL, hin, hx0, hy0⟩, hL0, hu, hf0, hg, htb, hLb, hn, hq, hb, hc, hrings⟩ := h
  have h0 : verts ≠ [] := by
    rintro rfl
    have := hbox.2 0 (lx, hx) rfl
    simp [pointsOf] at this
  -- the grid
  obtain ⟨box, eb, hb'⟩ := C35_global dbg (big := big) (d := 2) (procs := [verts]) (by omega) (by simpa using h2) ⟨verts, by simp, h0⟩ (by simpa using hr)
  rw [show [verts].flatMap (pointsOf 2) = pointsOf 2 verts by simp] at hb'
  rw [boxOnly hb' hbox] at eb
  obtain ⟨p0, hp0⟩ := List.exists_mem_of_ne_nil points hne
  obtain ⟨b1, b2, b3, b4⟩ := hin p0 hp0
  have L1 : hx - lx ≤ L := hL ▸ le_max_left _ _
  have L2 : hy - ly ≤ L := hL ▸ le_max_right _ _
  have hext : lx < hx ∨ ly < hy := by
    rcases max_choice (hx - lx) (hy - ly) with h | h
    · left; rw [h] at hL; linarith
    · right; rw [h] at hL; linarith
  obtain ⟨q, eq, hlen, hxm, hym, _, hgl, hst⟩ := C36_boundary dbg (points := points) eb hext (by dsimp only; linarith) (by dsimp only; linarith) hin
  simp only [← hL] at hlen hxm hym
  have S0 : 0 < q.length := by rw [hlen]; linarith
  have hu' : q.length / 2147483647 = u := by rw [hlen, hu]
  rw [← hx0] at hxm
  rw [← hy0] at hym
  obtain ⟨N, E, C, eC, hC⟩ := hq q eq
  set q1 : QT := { q with nodes := N, edges := E, cellEdges := C } with hq1
  -- the boundary
  have hvin : ∀ k, k < verts.length / 2 → (lx ≤ (vtx verts (k : Int)).x ∧ (vtx verts (k : Int)).x ≤ hx) ∧ ly ≤ (vtx verts (k : Int)).y ∧ (vtx verts (k : Int)).y ≤ hy := by
    intro k hk
    have hm := vtx_mem hk
    exact ⟨hbox.1.2 _ hm 0 (lx, hx) _ rfl rfl, hbox.1.2 _ hm 1 (ly, hy) _ rfl rfl⟩
  have hring : ∀ {fs : List (List Int)}, (∀ f ∈ fs, f.length = 2 ∧ ∀ i ∈ f, 0 ≤ i ∧ i < ((verts.length / 2 : Nat) : Int)) → plcRing dbg q1 verts fs = .ok (fs.map fun f => gridIx x y u (segA verts f)) := by
    intro fs hfs
    have := plc_ring dbg (q := q1) (verts := verts) S0 (fun k hk => by
      obtain ⟨⟨a1, a2⟩, a3, a4⟩ := hvin k hk
      show (q.xmin ≤ _ ∧ _ ≤ q.xmin + q.length) ∧ q.ymin ≤ _ ∧ _ ≤ q.ymin + q.length
      rw [hxm, hym, hlen, hx0, hy0]
      refine ⟨⟨?_, ?_⟩, ?_, ?_⟩ <;> linarith) hfs
    rw [this]
    show Res.ok (List.map (fun f => gridIx q.xmin q.ymin (q.length / 2147483647) (segA verts f)) fs) = _
    rw [hxm, hym, hu']
  have eB := hring (fs := plc.facets) fun f hf => hg.2 f (List.mem_append_left _ hf)
  have eH : plc.holes.mapM (plcRing dbg q1 verts) = .ok (plc.holes.map fun h => h.map fun f => gridIx x y u (segA verts f)) :=
    mapM_map fun h hh => hring fun f hf => hg.2 f (List.mem_append_right _ (List.mem_flatten.2 ⟨h, hh, hf⟩))
  -- clipping
  have hlr : rings.length = points.length := by rw [← hn]; exact hb.length_eq.symm
  have ecl := clip_cells boost dbg (q := q1) (i := 0) (C := C) (polys := polys) (rings := rings) (hC.imp fun c poly h => cell_ring (q := q1) h) hb (by
    intro j r hj
    have hjl : j < points.length := by rw [← hlr]; exact (List.getElem?_eq_some_iff.1 hj).1
    have hjg : j < q.generators.length := by omega
    refine ⟨q.generators[j], by rw [Nat.zero_add]; exact List.getElem?_eq_getElem hjg, ?_⟩
    obtain ⟨_, _, _, _, _, s1, s2, s3, s4⟩ := hst j _ _ (List.getElem?_eq_getElem hjl) (List.getElem?_eq_getElem hjg)
    have ex := floor_ix S0 s1 s2
    have ey := floor_ix S0 s3 s4
    rw [hu', hxm] at ex
    rw [hu', hym] at ey
    have := hc j r _ hj (List.getElem?_eq_getElem hjl)
    unfold gridIx at this
    rwa [ex, ey])
  obtain ⟨nodes, edges, cells, f, m, ecode, hf, em, hcons, hml, hmn, hnr, hcell, hbf, hout, hout'⟩ := clip_fill dbg (q := q1) hrings (show q.generators.length = rings.length by omega)
  have eclip : clipQuantized boost dbg q1 verts plc = .ok { q1 with nodes := nodes.map fun p => ⟨p.1, p.2, 0⟩, edges := edges, cellEdges := cells } := by
    unfold clipQuantized
    rw [eB, Res.ok_bind, eH, Res.ok_bind, show q1.cellEdges.zipIdx = C.zipIdx 0 from rfl, ecl, Res.ok_bind]
    have o : ∀ l : List (List P2), (l.map fun r => (r, ([] : List (List P2)))).flatMap Prod.snd = [] := by intro l; simp
    have r' : ∀ l : List (List P2), (l.map fun r => (r, ([] : List (List P2)))).map Prod.fst = l := by intro l; rw [List.map_map]; exact List.map_id l
    simp only [o, r', if_true, Res.ok_bind]
    rw [ecode]; rfl
  obtain ⟨bf, bn, e3, _, _, g1, g2⟩ := C12_boundary_exact dbg 2 (by omega) m hcons hbf
  -- snapping
  have hnl : m.nodes.length / 2 = nodes.length := by rw [hmn, flat_len]; omega
  have hbl : ∀ i ∈ bn, i < m.nodes.length / 2 := by
    intro i hi
    obtain ⟨e, he, _, hie⟩ := (g2 i).1 hi
    refine hcons.faces_lt (face m e) ?_ i hie
    unfold face
    rw [show m.faces.getD e [] = m.faces[e] by simp [List.getD, he]]; exact List.getElem_mem he
  have hplace : ∀ (n : Nat) (p : P2), nodes[n]? = some p → vtx m.nodes (n : Int) = gridSpot x y u p := by
    intro n p hp
    rw [hmn, vtx_flat (X := fun p : P2 => dequantize1 cmin2 cmax2 q1.length q1.xmin p.1) (Y := fun p : P2 => dequantize1 cmin2 cmax2 q1.length q1.ymin p.2) hp]
    show V2.mk (dequantize1 cmin2 cmax2 q.length q.xmin p.1) (dequantize1 cmin2 cmax2 q.length q.ymin p.2) = _
    rw [deq_spot, deq_spot, hu', hxm, hym]; rfl
  have hsb : ∀ i ∈ bn, ∃ s, OnPLC verts plc s ∧ dist2 (vtx m.nodes (i : Int)) s + 1 / 2 * (1 / 10 ^ 10) < big := by
    intro i hi
    obtain ⟨F, hF⟩ := List.exists_mem_of_ne_nil _ hf0
    obtain ⟨hF2, hFr⟩ := hg.2 F (List.mem_append_left _ hF)
    refine ⟨segA verts F, ⟨F, List.mem_append_left _ hF, 0, le_refl _, by norm_num, ?_⟩, ?_⟩
    · unfold lerp2; ext <;> simp
    · have hil := hbl i hi
      rw [hnl] at hil
      rw [hplace i _ (List.getElem?_eq_getElem hil)]
      obtain ⟨r, hr1, hr2⟩ := hnr _ (List.getElem_mem hil)
      obtain ⟨⟨k1, k2⟩, k3, k4⟩ := hrings.grid r hr1 _ hr2
      have c1 : ((-1073741824 : Int) : ℝ) ≤ (nodes[i].1 : ℝ) := by exact_mod_cast k1
      have c2 : (nodes[i].1 : ℝ) ≤ ((1073741823 : Int) : ℝ) := by exact_mod_cast k2
      have c3 : ((-1073741824 : Int) : ℝ) ≤ (nodes[i].2 : ℝ) := by exact_mod_cast k3
      have c4 : (nodes[i].2 : ℝ) ≤ ((1073741823 : Int) : ℝ) := by exact_mod_cast k4
      norm_num at c1 c2 c3 c4
      have u0 : 0 < u := by rw [hu]; positivity
      have u5 : 2147483647 * u = 5 * L := by rw [hu]; field_simp
      have hbd : ∀ k : ℝ, -1073741824 ≤ k → k ≤ 1073741823 → 0 ≤ (k + 1073741824) * u ∧ (k + 1073741824) * u ≤ 5 * L := by
        intro k a b
        refine ⟨mul_nonneg (by linarith) u0.le, ?_⟩
        rw [← u5]; exact mul_le_mul_of_nonneg_right (by linarith) u0.le
      obtain ⟨x1, x2⟩ := hbd _ c1 c2
      obtain ⟨y1, y2⟩ := hbd _ c3 c4
      have hsv : ∃ k, k < verts.length / 2 ∧ segA verts F = vtx verts ((k : Nat) : Int) := by
        match F, hF2 with
        | [a, b], _ =>
          obtain ⟨a0, a1⟩ := hFr a (by simp)
          refine ⟨a.toNat, by omega, ?_⟩
          unfold segA; rw [Int.toNat_of_nonneg a0]; rfl
      obtain ⟨k, hk, hke⟩ := hsv
      obtain ⟨⟨v1, v2⟩, v3, v4⟩ := hvin k hk
      rw [hke]
      have hd := dist_lt (a := gridSpot x y u nodes[i]) (b := vtx verts (k : Int)) (d := L) (by
        unfold gridSpot; dsimp only; rw [abs_le, hx0]; constructor <;> linarith) (by
        unfold gridSpot; dsimp only; rw [abs_le, hy0]; constructor <;> linarith) hL0
      norm_num at hd ⊢
      linarith
  have htol : IsTol degeneracy verts (4 * degeneracy * L) := ⟨lx, hx, ly, hy, hbox, by rw [hL]⟩
  have hrun : tessellateIn quantized boost dbg big degeneracy points verts plc = (snap2 dbg big degeneracy m.nodes bn verts plc).bind fun ns => .ok { m with nodes := ns, boundaryFaces := bf, boundaryNodes := bn } := by
    unfold tessellateIn
    rw [Res.assert_true dbg (List.length_pos_iff.2 hne), Res.ok_bind, eq, Res.ok_bind, eC, Res.ok_bind, eclip, Res.ok_bind, em, Res.ok_bind, e3]; rfl
  have hend : ∀ ns, ns.length = m.nodes.length → Consistent 2 { m with nodes := ns, boundaryFaces := bf, boundaryNodes := bn } ∧ BoundaryExact { m with nodes := ns, boundaryFaces := bf, boundaryNodes := bn } ∧
      (∀ (i : Nat) (r : List P2), rings[i]? = some r → (Mesh.cell { m with nodes := ns, boundaryFaces := bf, boundaryNodes := bn } i).map
        (fun s => (turned { m with nodes := ns, boundaryFaces := bf, boundaryNodes := bn } s).map fun n => vtx m.nodes (n : Int)) = (moved f r).map fun t => [gridSpot x y u t.1, gridSpot x y u t.2]) := by
    intro ns hns
    refine ⟨⟨hcons.dim_pos, by show 2 ∣ ns.length; rw [hns]; exact hcons.nodes_dvd, fun F hF n hn => by
      show n < ns.length / 2
      rw [hns]; exact hcons.faces_lt F hF n hn, hcons.cells_lt, hcons.faceCells_len, hcons.faceCells_size, hcons.faceCells_lt, hcons.inverse⟩, ⟨g1, g2⟩, ?_⟩
    intro i r hi
    have h := hcell i r hi
    show (Mesh.cell m i).map (fun s => (turned m s).map fun n => vtx m.nodes (n : Int)) = _
    generalize Mesh.cell m i = c at h
    generalize moved f r = w at h
    induction c generalizing w with
    | nil => cases w with
      | nil => rfl
      | cons a b => simp at h
    | cons k c ih => cases w with
      | nil => simp at h
      | cons t w =>
        simp only [List.map_cons, List.cons.injEq] at h ⊢
        refine ⟨?_, ih _ h.2⟩
        have h1 := h.1
        generalize turned m k = T at h1 ⊢
        match T, h1 with
        | [a, b], h1 =>
          simp only [List.map_cons, List.map_nil, List.cons.injEq, and_true] at h1
          show [vtx m.nodes (a : Int), vtx m.nodes (b : Int)] = _
          rw [hplace a _ h1.1, hplace b _ h1.2]
        | [], h1 => simp at h1
        | [_], h1 => simp at h1
        | _ :: _ :: _ :: _, h1 => simp at h1
  refine ⟨h0, htol, m, bf, bn, f, hrun, hbl, hsb, by omega, hf, ?_, ?_, hend⟩
  · intro p hp
    obtain ⟨n, hn', e, he, h1, hm⟩ := hout p hp
    exact ⟨n, (g2 n).2 ⟨e, he, h1, hm⟩, hplace n p hn'⟩
  · intro i hi
    obtain ⟨e, he, h1, hm⟩ := (g2 i).1 hi
    obtain ⟨p, hp, ho⟩ := hout' i e he h1 hm
    exact ⟨p, ho, hplace i p hp⟩

/-- C73: `tessellate` inside a PLC, for any tessellator. The mesh has one cell per generator, is consistent and has exact boundary lists. Cell `i` goes round its polygon, where vertices up to 2 grid steps
apart may have been merged, and the boundary nodes are the vertices of the outer edges. After that only boundary nodes have moved, and they moved as `Snapped` says: to the points of the PLC or onto its
sides, by less than the tolerance. With assertions either the program stops while snapping, or every point of the PLC has a node and every boundary node is on the PLC.
Missing: that Boost.Polygon returns the intersection; cells that the boundary divides (see `C73_orphans_fails`). -/
theorem C73_bounded_partial {quantized : QT → Res QT} {boost : Boost} {dbg : Bool} {big degeneracy L x y u : ℝ} {points : List (ℝ × ℝ)} {verts : List ℝ} {plc : Mesh.PLC} {polys rings : List (List P2)}
    (h : Call quantized boost dbg big degeneracy L x y u points verts plc polys rings) :
    (dbg = true ∧ tessellateIn quantized boost dbg big degeneracy points verts plc = .abort) ∨
    ∃ m nodes f claim, tessellateIn quantized boost dbg big degeneracy points verts plc = .ok m ∧ Consistent 2 m ∧ BoundaryExact m ∧ m.cells.length = points.length ∧ Merges f rings ∧
      (∀ (i : Nat) (r : List P2), rings[i]? = some r → (Mesh.cell m i).map (fun s => (turned m s).map fun n => vtx nodes (n : Int)) = (moved f r).map fun t => [gridSpot x y u t.1, gridSpot x y u t.2]) ∧
      (∀ p, Outer f rings p → ∃ i ∈ m.boundaryNodes, vtx nodes (i : Int) = gridSpot x y u p) ∧ (∀ i ∈ m.boundaryNodes, ∃ p, Outer f rings p ∧ vtx nodes (i : Int) = gridSpot x y u p) ∧
      Claims (4 * degeneracy * L) nodes m.boundaryNodes verts claim ∧ Snapped (4 * degeneracy * L) nodes m.boundaryNodes verts plc claim m.nodes ∧
      (dbg = true → (∀ v < verts.length / 2, ∃ i, claim v = some i) ∧ ∀ i ∈ m.boundaryNodes, (∀ v, claim v ≠ some i) → OnPLC verts plc (vtx m.nodes (i : Int))) := by
  obtain ⟨h0, htol, m, bf, bn, f, hrun, hbl, hsb, hml, hf, o1, o2, hend⟩ := bounded_core h
  cases dbg with
  | false =>
    right
    obtain ⟨ns, claim, es, hcl, hsn, _⟩ := C41_release_partial h.even h0 h.range htol h.tol_lt hbl h.good hsb
    obtain ⟨a1, a2, a3⟩ := hend ns hsn.length
    exact ⟨_, m.nodes, f, claim, by rw [hrun, es]; rfl, a1, a2, hml, hf, a3, o1, o2, hcl, hsn, fun h => by cases h⟩
  | true =>
    rcases C41_checked h.even h0 h.range htol h.tol_lt hbl h.good hsb with es | ⟨ns, claim, es, hcl, hsn, t1, t2⟩
    · left; exact ⟨rfl, by rw [hrun, es]; rfl⟩
    · right
      obtain ⟨a1, a2, a3⟩ := hend ns hsn.length
      exact ⟨_, m.nodes, f, claim, by rw [hrun, es]; rfl, a1, a2, hml, hf, a3, o1, o2, hcl, hsn, fun _ => ⟨t1, t2⟩⟩

/-- C73: if moreover the outer vertices fit the PLC, the call succeeds with and without assertions, every point of the PLC is a node of the mesh, and every boundary node is on the PLC. -/
theorem C73_success_partial {quantized : QT → Res QT} {boost : Boost} {dbg : Bool} {big degeneracy L x y u : ℝ} {points : List (ℝ × ℝ)} {verts : List ℝ} {plc : Mesh.PLC} {polys rings : List (List P2)}
    (h : Call quantized boost dbg big degeneracy L x y u points verts plc polys rings) (hfit : ∀ f, Merges f rings → FitsPLC (4 * degeneracy * L) (gridSpot x y u) (Outer f rings) verts plc) :
    ∃ m nodes f claim, tessellateIn quantized boost dbg big degeneracy points verts plc = .ok m ∧ Consistent 2 m ∧ BoundaryExact m ∧ m.cells.length = points.length ∧ Merges f rings ∧
      (∀ (i : Nat) (r : List P2), rings[i]? = some r → (Mesh.cell m i).map (fun s => (turned m s).map fun n => vtx nodes (n : Int)) = (moved f r).map fun t => [gridSpot x y u t.1, gridSpot x y u t.2]) ∧
      Claims (4 * degeneracy * L) nodes m.boundaryNodes verts claim ∧ Snapped (4 * degeneracy * L) nodes m.boundaryNodes verts plc claim m.nodes ∧
      (∀ v < verts.length / 2, ∃ i ∈ m.boundaryNodes, vtx m.nodes (i : Int) = vtx verts (v : Int)) ∧
      ∀ i ∈ m.boundaryNodes, (∃ v < verts.length / 2, vtx m.nodes (i : Int) = vtx verts (v : Int)) ∨ OnPLC verts plc (vtx m.nodes (i : Int)) := by
  obtain ⟨h0, htol, m, bf, bn, f, hrun, hbl, hsb, hml, hf, o1, o2, hend⟩ := bounded_core h
  have F := hfit f hf
  obtain ⟨ns, claim, es, hcl, hsn, t1, t2⟩ := C41_success dbg h.even h0 h.range htol h.tol_lt hbl h.good (nodes := m.nodes) (bnodes := bn) ⟨
    fun v hv => by
      obtain ⟨p, hp, hd⟩ := F.corner v hv
      obtain ⟨i, hi, he⟩ := o1 p hp
      exact ⟨i, hi, by rw [he]; exact hd⟩,
    fun i hi => by
      obtain ⟨p, hp, he⟩ := o2 i hi
      rw [he]; exact F.apart p hp,
    fun i hi => by
      obtain ⟨p, hp, he⟩ := o2 i hi
      rw [he]; exact F.tie p hp,
    fun i hi => by
      obtain ⟨p, hp, he⟩ := o2 i hi
      rw [he]; exact F.close p hp⟩
  obtain ⟨a1, a2, a3⟩ := hend ns hsn.length
  refine ⟨_, m.nodes, f, claim, by rw [hrun, es]; rfl, a1, a2, hml, hf, a3, hcl, hsn, ?_, ?_⟩
  · intro v hv
    obtain ⟨i, hi⟩ := t1 v hv
    exact ⟨i, (hcl.near v i hi).2.1, hsn.taken v i hi⟩
  · intro i hi
    by_cases hc : ∃ v, claim v = some i
    · obtain ⟨v, hv⟩ := hc
      exact Or.inl ⟨v, (hcl.near v i hv).1, hsn.taken v i hv⟩
    · exact Or.inr (t2 i hi fun v hv => hc ⟨v, hv⟩)

theorem mapM_parts {α β : Type} {f : α → Res β} : ∀ {l : List α} {l' : List β}, l.mapM f = .ok l' → (∀ b ∈ l', ∃ a ∈ l, f a = .ok b) ∧ ∀ a ∈ l, ∃ b ∈ l', f a = .ok b
  | [], l', h => by
    obtain rfl : [] = l' := Res.ok.inj h
    simp
  | a :: l, l', h => by
    rw [List.mapM_cons] at h
    obtain ⟨b, hb, h⟩ := Res.bind_eq_ok.1 h
    obtain ⟨bs, hbs, h⟩ := Res.bind_eq_ok.1 h
    obtain rfl : b :: bs = l' := Res.ok.inj h
    obtain ⟨i1, i2⟩ := mapM_parts hbs
    constructor
    · intro c hc
      rcases List.mem_cons.1 hc with rfl | hc
      · exact ⟨a, List.mem_cons_self .., hb⟩
      · obtain ⟨a', ha', e⟩ := i1 c hc
        exact ⟨a', List.mem_cons_of_mem _ ha', e⟩
    · intro c hc
      rcases List.mem_cons.1 hc with rfl | hc
      · exact ⟨b, List.mem_cons_self .., hb⟩
      · obtain ⟨a', ha', e⟩ := i2 c hc
        exact ⟨a', List.mem_cons_of_mem _ ha', e⟩

theorem choose_parts {boost : Boost} {dbg : Bool} {g : P2} {ps : List (List P2)} {r : List P2 × List (List P2)} (h : choose boost dbg g ps = .ok r) : r.1 ∈ ps ∧ (r.2 = [] → ps.length = 1) := by
  unfold choose at h
  obtain ⟨_, _, h⟩ := Res.bind_eq_ok.1 h
  obtain ⟨p, hp, h⟩ := Res.bind_eq_ok.1 h
  obtain ⟨_, _, h⟩ := Res.bind_eq_ok.1 h
  obtain rfl : (p, _) = r := Res.ok.inj h
  have hg := rd_eq_ok.1 hp
  refine ⟨List.mem_of_getElem? hg, fun h0 => ?_⟩
  have hl := (List.getElem?_eq_some_iff.1 hg).1
  have := congrArg List.length h0
  rw [List.length_eraseIdx_of_lt hl] at this
  simp only [List.length_nil] at this
  omega

/-- C73: no mesh is returned when the boundary divides a cell. Suppose that intersections are closed polygons with three corners or more, and that every orphan has a neighbour, so that there are cells to
rebuild. Then, if a call returns a mesh, the intersection of every cell with the boundary was one polygon. (The code that rebuilds the cells reads before the begin of a polygon.) -/
theorem C73_orphans_fails {quantized : QT → Res QT} {boost : Boost} {dbg : Bool} {big degeneracy : ℝ} {points : List (ℝ × ℝ)} {verts : List ℝ} {plc : Mesh.PLC} {m : Tess ℝ}
    (hclosed : ∀ P B H, ∀ r ∈ boost.inter P B H, 3 < r.length ∧ r.head? = r.getLast?)
    (hadopt : ∀ q R O n again, O ≠ [] → boost.adopt q R O = .ok (n, again) → ∃ c rest, again = c :: rest ∧ c.2.length ≠ 1)
    (h : tessellateIn quantized boost dbg big degeneracy points verts plc = .ok m) :
    ∃ q0 q B H, boundaryQT dbg big [verts] points = .ok q0 ∧ quantized q0 = .ok q ∧ plcRing dbg q verts plc.facets = .ok B ∧ plc.holes.mapM (plcRing dbg q verts) = .ok H ∧
      ∀ c ∈ q.cellEdges, ∃ P, cellRing q c = .ok P ∧ (boost.inter P B H).length = 1 := by
  unfold tessellateIn at h
  obtain ⟨_, _, h⟩ := Res.bind_eq_ok.1 h
  obtain ⟨q0, e0, h⟩ := Res.bind_eq_ok.1 h
  obtain ⟨q, e1, h⟩ := Res.bind_eq_ok.1 h
  obtain ⟨q', e2, _⟩ := Res.bind_eq_ok.1 h
  unfold clipQuantized at e2
  obtain ⟨B, eB, e2⟩ := Res.bind_eq_ok.1 e2
  obtain ⟨H, eH, e2⟩ := Res.bind_eq_ok.1 e2
  obtain ⟨cs, ecs, e2⟩ := Res.bind_eq_ok.1 e2
  obtain ⟨a, ea, e2⟩ := Res.bind_eq_ok.1 e2
  obtain ⟨r, er, _⟩ := Res.bind_eq_ok.1 e2
  obtain ⟨hone, hall⟩ := mapM_parts ecs
  have hrings : ∀ r ∈ cs.map Prod.fst, 3 < r.length ∧ r.head? = r.getLast? := by
    intro r hr
    obtain ⟨c, hc, rfl⟩ := List.mem_map.1 hr
    obtain ⟨c0, _, e⟩ := hone c hc
    unfold clipOne at e
    obtain ⟨P, _, e⟩ := Res.bind_eq_ok.1 e
    obtain ⟨g, _, e⟩ := Res.bind_eq_ok.1 e
    exact hclosed _ _ _ _ (choose_parts e).1
  have ho : cs.flatMap Prod.snd = [] := by
    by_contra hne
    rw [if_neg hne] at ea
    obtain ⟨n, again⟩ := a
    obtain ⟨c, rest, rfl, hc⟩ := hadopt _ _ _ _ _ hne ea
    rcases C38_orphans_fails dbg (orphans := n) (again := rest) hrings hc with e | ⟨_, e⟩
    · rw [e] at er; cases er
    · rw [e] at er; cases er
  refine ⟨q0, q, B, H, e0, e1, eB, eH, fun c hc => ?_⟩
  obtain ⟨i, hi⟩ := List.mem_iff_getElem?.1 hc
  obtain ⟨d, hd, e⟩ := hall (c, i) (List.mem_zipIdx_iff_getElem?.2 hi)
  unfold clipOne at e
  obtain ⟨P, eP, e⟩ := Res.bind_eq_ok.1 e
  obtain ⟨g, _, e⟩ := Res.bind_eq_ok.1 e
  exact ⟨P, eP, (choose_parts e).2 (List.flatMap_eq_nil_iff.1 ho d hd)⟩

/-- C73: `tessellate` in a rectangle is `tessellate` in the PLC with its four sides. -/
theorem C73_box (quantized : QT → Res QT) (boost : Boost) (dbg : Bool) (big degeneracy : ℝ) (points : List (ℝ × ℝ)) (xlo ylo xhi yhi : ℝ) :
    tessellateBox quantized boost dbg big degeneracy points xlo ylo xhi yhi =
      tessellateIn quantized boost dbg big degeneracy points [xlo, ylo, xhi, ylo, xhi, yhi, xlo, yhi] { facets := [[0, 1], [1, 2], [2, 3], [3, 0]], holes := [] } := by
  unfold tessellateBox
  rw [makeBox2_ok (by intro f hf; cases hf)]; rfl

/-- C73 fails for a PLC whose facets are not listed in the order of the loop: the polygon that is handed to Boost.Polygon connects the first points of the facets as they are listed. For a square
with the four sides in the order bottom, top, right, left, which has the same facets, it connects both diagonals. -/
theorem C73_order_fails (dbg : Bool) {q : QT} (hl : 0 < q.length) {x1 y1 x2 y2 : ℝ} (hx : q.xmin ≤ x1 ∧ x1 ≤ x2 ∧ x2 ≤ q.xmin + q.length) (hy : q.ymin ≤ y1 ∧ y1 ≤ y2 ∧ y2 ≤ q.ymin + q.length) :
    ([[0, 1], [2, 3], [1, 2], [3, 0]] : List (List Int)).Perm [[0, 1], [1, 2], [2, 3], [3, 0]] ∧
    plcRing dbg q [x1, y1, x2, y1, x2, y2, x1, y2] [[0, 1], [2, 3], [1, 2], [3, 0]] = .ok ([⟨x1, y1⟩, ⟨x2, y2⟩, ⟨x2, y1⟩, ⟨x1, y2⟩].map (gridIx q.xmin q.ymin (q.length / 2147483647))) := by
  refine ⟨by decide, ?_⟩
  rw [plc_ring dbg hl (by
    intro k hk
    have hk4 : k = 0 ∨ k = 1 ∨ k = 2 ∨ k = 3 := by simp only [List.length_cons, List.length_nil] at hk; omega
    rcases hk4 with rfl | rfl | rfl | rfl
    · show (q.xmin ≤ x1 ∧ x1 ≤ _) ∧ q.ymin ≤ y1 ∧ y1 ≤ _
      refine ⟨⟨?_, ?_⟩, ?_, ?_⟩ <;> linarith
    · show (q.xmin ≤ x2 ∧ x2 ≤ _) ∧ q.ymin ≤ y1 ∧ y1 ≤ _
      refine ⟨⟨?_, ?_⟩, ?_, ?_⟩ <;> linarith
    · show (q.xmin ≤ x2 ∧ x2 ≤ _) ∧ q.ymin ≤ y2 ∧ y2 ≤ _
      refine ⟨⟨?_, ?_⟩, ?_, ?_⟩ <;> linarith
    · show (q.xmin ≤ x1 ∧ x1 ≤ _) ∧ q.ymin ≤ y2 ∧ y2 ≤ _
      refine ⟨⟨?_, ?_⟩, ?_, ?_⟩ <;> linarith) (by rw [show ([x1, y1, x2, y1, x2, y2, x1, y2] : List ℝ).length / 2 = 4 by simp]; decide)]
  rfl

theorem unique_of (shift : Points.Key → Nat → Points.Key) (dbg : Bool) {eps tol lx hx ly hy : ℝ} (he : 0 < eps) {points : List (ℝ × ℝ)} (hne : points ≠ []) (hin : ∀ p ∈ points, lx ≤ p.1 ∧ p.1 ≤ hx ∧ ly ≤ p.2 ∧ p.2 ≤ hy) :
    ∃ u ix, Hash.uniquePoints2 (Points.wrapping shift) dbg eps tol ⟨⟨lx, ly⟩, ⟨hx, hy⟩⟩ (points.map toV) = .ok (u, ix) ∧ Hash.FirstOf (Hash.sameHash eps tol ⟨⟨lx, ly⟩, ⟨hx, hy⟩⟩) (points.map toV) ((u.map ofV).map toV) ix ∧
      u.map ofV ≠ [] ∧ ∀ i ∈ ix, i < (u.map ofV).length := by
  obtain ⟨p0, hp0⟩ := List.exists_mem_of_ne_nil points hne
  obtain ⟨b1, b2, b3, b4⟩ := hin p0 hp0
  obtain ⟨u, ix, e, hf, _⟩ := Hash.C21_partial shift dbg (tol := tol) he (b := ⟨⟨lx, ly⟩, ⟨hx, hy⟩⟩) ⟨⟨le_refl _, le_refl _⟩, ⟨le_refl _, le_refl _⟩, b1.trans b2, b3.trans b4⟩ (points := points.map toV) (by
    intro p hp
    obtain ⟨x, hx', rfl⟩ := List.mem_map.1 hp
    obtain ⟨c1, c2, c3, c4⟩ := hin x hx'
    exact ⟨⟨c1, c2⟩, c3, c4⟩)
  refine ⟨u, ix, e, by rw [Tri.map_toV]; exact hf, ?_, ?_⟩
  · intro h
    have hv0 : u = [] := by simpa using h
    obtain ⟨i, hi⟩ := List.getElem?_of_mem (List.mem_map_of_mem (f := toV) hp0)
    obtain ⟨k, r, _, h2, _⟩ := hf.maps i _ hi
    rw [hv0] at h2; simp at h2
  · intro i hi
    obtain ⟨k, hk⟩ := List.getElem?_of_mem hi
    have hkl : k < (points.map toV).length := by rw [← hf.length]; exact (List.getElem?_eq_some_iff.1 hk).1
    obtain ⟨i', r, e1, e2, _⟩ := hf.maps k _ (List.getElem?_eq_getElem hkl)
    rw [hk] at e1; injection e1 with e1; subst e1
    have := (List.getElem?_eq_some_iff.1 e2).1
    simpa using this

/-- C72: `tessellateDegenerate` in a PLC calls `tessellate` with the first generator of each class of generators with the same hash, and gives for every generator the number of the cell of its class. -/
theorem C72_bounded_partial (shift : Points.Key → Nat → Points.Key) (quantized : QT → Res QT) (boost : Boost) (dbg : Bool) {big degeneracy eps tol lx hx ly hy : ℝ} (he : 0 < eps) {points : List (ℝ × ℝ)} {verts : List ℝ} (plc : Mesh.PLC)
    (hne : points ≠ []) (h2 : 2 ∣ verts.length) (hr : ∀ v ∈ verts, -big ≤ v ∧ v ≤ big) (hbox : IsBox 2 (pointsOf 2 verts) [(lx, hx), (ly, hy)]) (hin : ∀ p ∈ points, lx ≤ p.1 ∧ p.1 ≤ hx ∧ ly ≤ p.2 ∧ p.2 ≤ hy) :
    ∃ u ix, Hash.FirstOf (Hash.sameHash eps tol ⟨⟨lx, ly⟩, ⟨hx, hy⟩⟩) (points.map toV) (u.map toV) ix ∧ u ≠ [] ∧ (∀ i ∈ ix, i < u.length) ∧
      tessellateDegenerateIn (Points.wrapping shift) quantized boost dbg big degeneracy eps tol points verts plc = (tessellateIn quantized boost dbg big degeneracy u verts plc).bind fun m => .ok (m, ix) := by
  have h0 : verts ≠ [] := by
    rintro rfl
    have := hbox.2 0 (lx, hx) rfl
    simp [pointsOf] at this
  obtain ⟨box, eb, hb'⟩ := C35_global dbg (big := big) (d := 2) (procs := [verts]) (by omega) (by simpa using h2) ⟨verts, by simp, h0⟩ (by simpa using hr)
  rw [show [verts].flatMap (pointsOf 2) = pointsOf 2 verts by simp] at hb'
  rw [boxOnly hb' hbox] at eb
  obtain ⟨u, ix, e, h1, h2, h3⟩ := unique_of shift dbg (tol := tol) he hne hin
  refine ⟨u.map ofV, ix, h1, h2, h3, ?_⟩
  unfold tessellateDegenerateIn
  rw [eb, Res.ok_bind, show rd [(lx, hx), (ly, hy)] 0 = .ok (lx, hx) from rfl, Res.ok_bind, show rd [(lx, hx), (ly, hy)] 1 = .ok (ly, hy) from rfl, Res.ok_bind, e]; rfl

/-- C72: the same in a rectangle. -/
theorem C72_box_partial (shift : Points.Key → Nat → Points.Key) (quantized : QT → Res QT) (boost : Boost) (dbg : Bool) {big degeneracy eps tol xlo xhi ylo yhi : ℝ} (he : 0 < eps) {points : List (ℝ × ℝ)}
    (hne : points ≠ []) (hin : ∀ p ∈ points, xlo ≤ p.1 ∧ p.1 ≤ xhi ∧ ylo ≤ p.2 ∧ p.2 ≤ yhi) :
    ∃ u ix, Hash.FirstOf (Hash.sameHash eps tol ⟨⟨xlo, ylo⟩, ⟨xhi, yhi⟩⟩) (points.map toV) (u.map toV) ix ∧ u ≠ [] ∧ (∀ i ∈ ix, i < u.length) ∧
      tessellateDegenerateBox (Points.wrapping shift) quantized boost dbg big degeneracy eps tol points xlo ylo xhi yhi = (tessellateBox quantized boost dbg big degeneracy u xlo ylo xhi yhi).bind fun m => .ok (m, ix) := by
  obtain ⟨u, ix, e, h1, h2, h3⟩ := unique_of shift dbg (tol := tol) he hne hin
  refine ⟨u.map ofV, ix, h1, h2, h3, ?_⟩
  unfold tessellateDegenerateBox
  rw [e]; rfl

/-! An example: a square with side 2147483647, for which the grid spacing is 5, and two generators, whose cells are a left and a right half plane on the grid. -/

/-- Axis-parallel rectangles in place of Boost.Polygon. -/
def rectBoost : Boost where
  inter P B _ :=
    let lo (f : P2 → Int) := max ((P.map f).foldl min 1073741823) ((B.map f).foldl min 1073741823)
    let hi (f : P2 → Int) := min ((P.map f).foldl max (-1073741824)) ((B.map f).foldl max (-1073741824))
    [[(lo Prod.fst, lo Prod.snd), (hi Prod.fst, lo Prod.snd), (hi Prod.fst, hi Prod.snd), (lo Prod.fst, hi Prod.snd), (lo Prod.fst, lo Prod.snd)]]
  contains R p := R.any (fun r => decide (r.1 ≤ p.1)) && R.any (fun r => decide (p.1 ≤ r.1)) && R.any (fun r => decide (r.2 ≤ p.2)) && R.any (fun r => decide (p.2 ≤ r.2))
  adopt _ _ _ := .abort

/-- Two half planes. -/
def halves (q : QT) : Res QT := .ok { q with
  nodes := [⟨-1000000000, -1000000000, 0⟩, ⟨0, -1000000000, 0⟩, ⟨0, 1000000000, 0⟩, ⟨-1000000000, 1000000000, 0⟩, ⟨1000000000, -1000000000, 0⟩, ⟨1000000000, 1000000000, 0⟩]
  edges := [(0, 1), (1, 2), (2, 3), (3, 0), (1, 4), (4, 5), (5, 2)]
  cellEdges := [[0, 1, 2, 3], [4, 5, 6, -2]] }

def halvesPolys : List (List P2) := [[(-1000000000, -1000000000), (0, -1000000000), (0, 1000000000), (-1000000000, 1000000000)], [(0, -1000000000), (1000000000, -1000000000), (1000000000, 1000000000), (0, 1000000000)]]

def halvesRings : List (List P2) := [[(-214748366, -214748366), (0, -214748366), (0, 214748364), (-214748366, 214748364), (-214748366, -214748366)],
  [(0, -214748366), (214748364, -214748366), (214748364, 214748364), (0, 214748364), (0, -214748366)]]

noncomputable def bigSquare : List ℝ := [0, 0, 2147483647, 0, 2147483647, 2147483647, 0, 2147483647]

theorem halves_id {f : P2 → P2} (hf : Merges f halvesRings) : ∀ r ∈ halvesRings, ∀ p ∈ r, f p = p := by
  have key : ∀ r ∈ halvesRings, ∀ p ∈ r, ∀ r' ∈ halvesRings, ∀ p' ∈ r', Within2 p p' → p' = p := by decide
  intro r hr p hp
  obtain ⟨h1, r', hr', hp'⟩ := hf r hr p hp
  exact key r hr p hp r' hr' _ hp' h1

theorem halves_moved {f : P2 → P2} (hf : Merges f halvesRings) : halvesRings.flatMap (moved f) = halvesRings.flatMap (moved id) := by
  refine List.flatMap_congr fun r hr => ?_
  have h := halves_id hf r hr
  unfold moved ringSides
  congr 1
  refine List.map_congr_left fun t ht => ?_
  obtain ⟨h1, h2⟩ := List.of_mem_zip (a := t.1) (b := t.2) ht
  rw [h _ h1, h _ (List.mem_of_mem_tail h2)]; rfl

theorem halves_good : GoodRings halvesRings where
  closed := by decide
  grid := by decide
  clear := by decide
  once f hf := by rw [halves_moved hf]; decide
  outer f hf := by rw [halves_moved hf]; exact ⟨((-214748366, -214748366), (0, -214748366)), by decide, by decide⟩

theorem big_ix (a b : ℝ) {i j : Int} (h1 : i * 5 ≤ a + 4294967294) (h2 : a + 4294967294 < i * 5 + 5) (h3 : j * 5 ≤ b + 4294967294) (h4 : b + 4294967294 < j * 5 + 5) :
    gridIx (-4294967294) (-4294967294) 5 ⟨a, b⟩ = (-1073741824 + i, -1073741824 + j) := by
  unfold gridIx
  have e1 : ⌊(a - -4294967294) / 5⌋ = i := by
    rw [Int.floor_eq_iff]
    constructor
    · rw [le_div_iff₀ (by norm_num)]; linarith
    · rw [div_lt_iff₀ (by norm_num)]; linarith
  have e2 : ⌊(b - -4294967294) / 5⌋ = j := by
    rw [Int.floor_eq_iff]
    constructor
    · rw [le_div_iff₀ (by norm_num)]; linarith
    · rw [div_lt_iff₀ (by norm_num)]; linarith
  dsimp only
  rw [e1, e2]

theorem big_ring : squareFacets.facets.map (fun f => gridIx (-4294967294) (-4294967294) 5 (segA bigSquare f)) = [(-214748366, -214748366), (214748364, -214748366), (214748364, 214748364), (-214748366, 214748364)] := by
  have a0 : segA bigSquare [0, 1] = ⟨0, 0⟩ := rfl
  have a1 : segA bigSquare [1, 2] = ⟨2147483647, 0⟩ := rfl
  have a2 : segA bigSquare [2, 3] = ⟨2147483647, 2147483647⟩ := rfl
  have a3 : segA bigSquare [3, 0] = ⟨0, 2147483647⟩ := rfl
  unfold squareFacets
  simp only [List.map_cons, List.map_nil]
  rw [a0, a1, a2, a3, big_ix 0 0 (i := 858993458) (j := 858993458) (by norm_num) (by norm_num) (by norm_num) (by norm_num), big_ix _ 0 (i := 1288490188) (j := 858993458) (by norm_num) (by norm_num) (by norm_num) (by norm_num),
    big_ix _ _ (i := 1288490188) (j := 1288490188) (by norm_num) (by norm_num) (by norm_num) (by norm_num), big_ix 0 _ (i := 858993458) (j := 1288490188) (by norm_num) (by norm_num) (by norm_num) (by norm_num)]
  rfl

theorem big_box : IsBox 2 (pointsOf 2 bigSquare) [(0, 2147483647), (0, 2147483647)] := by
  refine ⟨⟨rfl, ?_⟩, ?_⟩
  · intro p hp j b x hb hx
    have hpp : p = [0, 0] ∨ p = [2147483647, 0] ∨ p = [2147483647, 2147483647] ∨ p = [0, 2147483647] := by
      simpa [pointsOf, bigSquare, List.range_succ] using hp
    have hj : j < 2 := (List.getElem?_eq_some_iff.mp hb).1
    have hb' : b = (0, 2147483647) := by
      rcases (by omega : j = 0 ∨ j = 1) with rfl | rfl <;> simpa using hb.symm
    subst hb'
    rcases (by omega : j = 0 ∨ j = 1) with rfl | rfl <;> rcases hpp with rfl | rfl | rfl | rfl <;> (have := Option.some.inj hx; subst this; norm_num)
  · intro j b hb
    have hj : j < 2 := (List.getElem?_eq_some_iff.mp hb).1
    have hb' : b = (0, 2147483647) := by
      rcases (by omega : j = 0 ∨ j = 1) with rfl | rfl <;> simpa using hb.symm
    subst hb'
    have m0 : [(0 : ℝ), 0] ∈ pointsOf 2 bigSquare := by simp [pointsOf, bigSquare, List.range_succ]
    have m1 : [(2147483647 : ℝ), 2147483647] ∈ pointsOf 2 bigSquare := by simp [pointsOf, bigSquare, List.range_succ]
    rcases (by omega : j = 0 ∨ j = 1) with rfl | rfl
    · exact ⟨⟨_, m0, rfl⟩, _, m1, rfl⟩
    · exact ⟨⟨_, m0, rfl⟩, _, m1, rfl⟩

theorem halves_call (dbg : Bool) : Call halves rectBoost dbg (10 ^ 12) (25 / 2147483647) 2147483647 (-4294967294) (-4294967294) 5 [(500000000, 1000000000), (1500000000, 1000000000)] bigSquare squareFacets halvesPolys halvesRings where
  some := by simp
  even := ⟨4, rfl⟩
  range := by
    intro v hv
    simp only [bigSquare, List.mem_cons, List.not_mem_nil, or_false] at hv
    rcases hv with rfl | rfl | rfl | rfl | rfl | rfl | rfl | rfl <;> norm_num
  box := by
    refine ⟨0, 2147483647, 0, 2147483647, big_box, by norm_num, ?_, by norm_num, by norm_num⟩
    intro p hp
    simp only [List.mem_cons, List.not_mem_nil, or_false] at hp
    rcases hp with rfl | rfl <;> norm_num
  size := by norm_num
  step := by norm_num
  facets := by decide
  good := ⟨rfl, by decide⟩
  tol_lt := by norm_num
  size_lt := by norm_num
  count := rfl
  cells := by
    intro q _
    exact ⟨_, _, _, rfl, .cons (by decide) (.cons (by decide) .nil)⟩
  inter := by
    rw [big_ring]
    exact .cons (by decide) (.cons (by decide) .nil)
  inside := by
    intro i r p hr hp
    match i, hr, hp with
    | 0, hr, hp =>
      obtain rfl := Option.some.inj hr
      obtain rfl := Option.some.inj hp
      rw [big_ix _ _ (i := 958993458) (j := 1058993458) (by norm_num) (by norm_num) (by norm_num) (by norm_num)]
      decide
    | 1, hr, hp =>
      obtain rfl := Option.some.inj hr
      obtain rfl := Option.some.inj hp
      rw [big_ix _ _ (i := 1158993458) (j := 1058993458) (by norm_num) (by norm_num) (by norm_num) (by norm_num)]
      decide
    | i + 2, hr, hp => simp [halvesRings] at hr
  rings := halves_good

theorem halves_outer {f : P2 → P2} (hf : Merges f halvesRings) (p : P2) : Outer f halvesRings p ↔
    p ∈ [((-214748366, -214748366) : P2), (214748364, -214748366), (214748364, 214748364), (-214748366, 214748364), (0, -214748366), (0, 214748364)] := by
  unfold Outer
  rw [halves_moved hf]
  constructor
  · rintro ⟨t, ht, hr, hp⟩
    have key : ∀ t ∈ halvesRings.flatMap (moved id), t.1 ∈ [((-214748366, -214748366) : P2), (214748364, -214748366), (214748364, 214748364), (-214748366, 214748364), (0, -214748366), (0, 214748364)] ∧
        t.2 ∈ [((-214748366, -214748366) : P2), (214748364, -214748366), (214748364, 214748364), (-214748366, 214748364), (0, -214748366), (0, 214748364)] := by decide
    rcases hp with rfl | rfl
    · exact (key t ht).1
    · exact (key t ht).2
  · intro hp
    simp only [List.mem_cons, List.not_mem_nil, or_false] at hp
    rcases hp with rfl | rfl | rfl | rfl | rfl | rfl
    · exact ⟨((-214748366, -214748366), (0, -214748366)), by decide, by decide, by decide⟩
    · exact ⟨((0, -214748366), (214748364, -214748366)), by decide, by decide, by decide⟩
    · exact ⟨((214748364, 214748364), (0, 214748364)), by decide, by decide, by decide⟩
    · exact ⟨((0, 214748364), (-214748366, 214748364)), by decide, by decide, by decide⟩
    · exact ⟨((-214748366, -214748366), (0, -214748366)), by decide, by decide, by decide⟩
    · exact ⟨((214748364, 214748364), (0, 214748364)), by decide, by decide, by decide⟩

/-- The hypotheses of `C73_bounded_partial` and `C73_success_partial` hold for the two halves of the square, with the tolerance 100. -/
example (dbg : Bool) : Call halves rectBoost dbg (10 ^ 12) (25 / 2147483647) 2147483647 (-4294967294) (-4294967294) 5 [(500000000, 1000000000), (1500000000, 1000000000)] bigSquare squareFacets halvesPolys halvesRings ∧
    ∀ f, Merges f halvesRings → FitsPLC (4 * (25 / 2147483647) * 2147483647) (gridSpot (-4294967294) (-4294967294) 5) (Outer f halvesRings) bigSquare squareFacets := by
  refine ⟨halves_call dbg, fun f hf => ?_⟩
  rw [show (4 * (25 / 2147483647) * 2147483647 : ℝ) = 100 by norm_num]
  have lt : ∀ a b : V2 ℝ, dist2 a b < 100 ↔ sq2 a b < 100 ^ 2 := fun a b => Real.sqrt_lt' (by norm_num)
  have n0 : gridSpot (-4294967294) (-4294967294) 5 (-214748366, -214748366) = ⟨-4, -4⟩ := by unfold gridSpot; ext <;> norm_num
  have n1 : gridSpot (-4294967294) (-4294967294) 5 (214748364, -214748366) = ⟨2147483646, -4⟩ := by unfold gridSpot; ext <;> norm_num
  have n2 : gridSpot (-4294967294) (-4294967294) 5 (214748364, 214748364) = ⟨2147483646, 2147483646⟩ := by unfold gridSpot; ext <;> norm_num
  have n3 : gridSpot (-4294967294) (-4294967294) 5 (-214748366, 214748364) = ⟨-4, 2147483646⟩ := by unfold gridSpot; ext <;> norm_num
  have n4 : gridSpot (-4294967294) (-4294967294) 5 (0, -214748366) = ⟨1073741826, -4⟩ := by unfold gridSpot; ext <;> norm_num
  have n5 : gridSpot (-4294967294) (-4294967294) 5 (0, 214748364) = ⟨1073741826, 2147483646⟩ := by unfold gridSpot; ext <;> norm_num
  have c0 : vtx bigSquare ((0 : Nat) : Int) = ⟨0, 0⟩ := rfl
  have c1 : vtx bigSquare ((1 : Nat) : Int) = ⟨2147483647, 0⟩ := rfl
  have c2 : vtx bigSquare ((2 : Nat) : Int) = ⟨2147483647, 2147483647⟩ := rfl
  have c3 : vtx bigSquare ((3 : Nat) : Int) = ⟨0, 2147483647⟩ := rfl
  have v4 : ∀ v, v < bigSquare.length / 2 → v = 0 ∨ v = 1 ∨ v = 2 ∨ v = 3 := by
    intro v hv
    have : bigSquare.length / 2 = 4 := rfl
    omega
  have ho := halves_outer hf
  refine ⟨?_, ?_, ?_, ?_⟩
  · intro v hv
    rcases v4 v hv with rfl | rfl | rfl | rfl
    · exact ⟨(-214748366, -214748366), (ho _).2 (by decide), by rw [lt, n0, c0, sq2]; norm_num⟩
    · exact ⟨(214748364, -214748366), (ho _).2 (by decide), by rw [lt, n1, c1, sq2]; norm_num⟩
    · exact ⟨(214748364, 214748364), (ho _).2 (by decide), by rw [lt, n2, c2, sq2]; norm_num⟩
    · exact ⟨(-214748366, 214748364), (ho _).2 (by decide), by rw [lt, n3, c3, sq2]; norm_num⟩
  · intro p hp v hv w hw
    have hp := (ho p).1 hp
    simp only [List.mem_cons, List.not_mem_nil, or_false] at hp
    rw [lt, lt]
    rcases v4 v hv with rfl | rfl | rfl | rfl <;> rcases v4 w hw with rfl | rfl | rfl | rfl <;> rcases hp with rfl | rfl | rfl | rfl | rfl | rfl <;> simp only [n0, n1, n2, n3, n4, n5, c0, c1, c2, c3, sq2] <;> norm_num
  · intro p hp v hv he
    have hp := (ho p).1 hp
    have : sq2 (gridSpot (-4294967294) (-4294967294) 5 p) (vtx bigSquare (v : Int)) = 100 ^ 2 := by
      rw [← he, dist2, Real.sq_sqrt (by unfold sq2; positivity)]
    simp only [List.mem_cons, List.not_mem_nil, or_false] at hp
    revert this
    rcases v4 v hv with rfl | rfl | rfl | rfl <;> rcases hp with rfl | rfl | rfl | rfl | rfl | rfl <;> simp only [n0, n1, n2, n3, n4, n5, c0, c1, c2, c3, sq2] <;> norm_num
  · intro p hp
    have hp := (ho p).1 hp
    have a0 : segA bigSquare [0, 1] = ⟨0, 0⟩ := rfl
    have b0 : segB bigSquare [0, 1] = ⟨2147483647, 0⟩ := rfl
    have a2 : segA bigSquare [2, 3] = ⟨2147483647, 2147483647⟩ := rfl
    have b2 : segB bigSquare [2, 3] = ⟨0, 2147483647⟩ := rfl
    have key : ∀ t : ℝ, 0 ≤ t → t ≤ 1 → ∀ a : V2 ℝ, sq2 a ⟨t * 2147483647, 0⟩ ≤ 10 ^ 2 → ∃ q, OnPLC bigSquare squareFacets q ∧ dist2 a q + 1 / 2 * (1 / 10 ^ 10) < 100 := by
      intro t h0 h1 a ha
      refine ⟨⟨t * 2147483647, 0⟩, ⟨[0, 1], by decide, t, h0, h1, ?_⟩, ?_⟩
      · rw [a0, b0]; unfold lerp2; ext <;> norm_num
      · have : dist2 a ⟨t * 2147483647, 0⟩ ≤ 10 := Real.sqrt_le_iff.2 ⟨by norm_num, ha⟩
        linarith
    have key' : ∀ t : ℝ, 0 ≤ t → t ≤ 1 → ∀ a : V2 ℝ, sq2 a ⟨2147483647 + t * -2147483647, 2147483647⟩ ≤ 10 ^ 2 → ∃ q, OnPLC bigSquare squareFacets q ∧ dist2 a q + 1 / 2 * (1 / 10 ^ 10) < 100 := by
      intro t h0 h1 a ha
      refine ⟨⟨2147483647 + t * -2147483647, 2147483647⟩, ⟨[2, 3], by decide, t, h0, h1, ?_⟩, ?_⟩
      · rw [a2, b2]; unfold lerp2; ext <;> norm_num
      · have : dist2 a ⟨2147483647 + t * -2147483647, 2147483647⟩ ≤ 10 := Real.sqrt_le_iff.2 ⟨by norm_num, ha⟩
        linarith
    simp only [List.mem_cons, List.not_mem_nil, or_false] at hp
    rcases hp with rfl | rfl | rfl | rfl | rfl | rfl
    · rw [n0]; exact key 0 (by norm_num) (by norm_num) _ (by rw [sq2]; norm_num)
    · rw [n1]; exact key 1 (by norm_num) (by norm_num) _ (by rw [sq2]; norm_num)
    · rw [n2]; exact key' 0 (by norm_num) (by norm_num) _ (by rw [sq2]; norm_num)
    · rw [n3]; exact key' 1 (by norm_num) (by norm_num) _ (by rw [sq2]; norm_num)
    · rw [n4]; exact key (1 / 2) (by norm_num) (by norm_num) _ (by rw [sq2]; norm_num)
    · rw [n5]; exact key' (1 / 2) (by norm_num) (by norm_num) _ (by rw [sq2]; norm_num)

/-- The hypotheses of `C73_orphans_fails` can be met: a mesh is returned for the two halves, and `rectBoost` always gives closed polygons. -/
example : (∀ P B H, ∀ r ∈ rectBoost.inter P B H, 3 < r.length ∧ r.head? = r.getLast?) ∧
    ∀ q R O n again, O ≠ [] → rectBoost.adopt q R O = .ok (n, again) → ∃ c rest, again = c :: rest ∧ c.2.length ≠ 1 := by
  constructor
  · intro P B H r hr
    simp only [rectBoost, List.mem_cons, List.not_mem_nil, or_false] at hr
    subst hr
    simp
  · intro q R O n again _ h; cases h

/-- The hypotheses of `C72_bounded_partial` and `C72_box_partial` hold for the square and three generators. -/
example : (([(500000000, 1000000000), (1500000000, 1000000000), (500000000, 1000000000)] : List (ℝ × ℝ)) ≠ []) ∧ 2 ∣ bigSquare.length ∧ IsBox 2 (pointsOf 2 bigSquare) [(0, 2147483647), (0, 2147483647)] ∧
    ∀ p ∈ ([(500000000, 1000000000), (1500000000, 1000000000), (500000000, 1000000000)] : List (ℝ × ℝ)), 0 ≤ p.1 ∧ p.1 ≤ 2147483647 ∧ 0 ≤ p.2 ∧ p.2 ≤ 2147483647 := by
  refine ⟨by simp, ⟨4, rfl⟩, big_box, ?_⟩
  intro p hp
  simp only [List.mem_cons, List.not_mem_nil, or_false] at hp
  rcases hp with rfl | rfl | rfl <;> norm_num

end Verif.Driver
