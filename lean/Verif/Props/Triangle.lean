import Verif.Proofs.TriFan
import Verif.Props.Quant
import Verif.Props.Circum
import Verif.Props.Fill
import Verif.Proofs.TriCheck
/- C68: the cells that are read out of a Delaunay triangulation. -/
namespace Verif.Tri
open Verif Verif.Mesh Verif.Internal Verif.Geom Verif.Readout

/-- Where point number `k` is: the generators come first, then the guards. -/
noncomputable def ptAt (q : QT) (k : Nat) : Option (V2 ℝ) := ((q.generators ++ q.guards)[k]?).map (dequantize2 q)

/-- The triangle has a generator as a corner. -/
def Touches (q : QT) (t : Nat × Nat × Nat) : Prop := ∃ g ∈ corners t, g < q.generators.length

instance (q : QT) (t : Nat × Nat × Nat) : Decidable (Touches q t) := by unfold Touches; infer_instance

/-- `X` has the same distance from the three corners of `t`. -/
def Equidistant (q : QT) (t : Nat × Nat × Nat) (X : V2 ℝ) : Prop := ∃ A B C, ptAt q t.1 = some A ∧ ptAt q t.2.1 = some B ∧ ptAt q t.2.2 = some C ∧ sq2 X A = sq2 X B ∧ sq2 X B = sq2 X C

/-- `X` is in the square of the quantized coordinates or not further to the left or below it than half of its side. -/
def Fits (q : QT) (X : V2 ℝ) : Prop := q.xmin - q.length / 2 ≤ X.x ∧ X.x ≤ q.xmin + q.length ∧ q.ymin - q.length / 2 ≤ X.y ∧ X.y ≤ q.ymin + q.length

/-- The quantized points are in range and `tris` are triangles between them, counterclockwise, of which those with a generator have their centres in range. -/
structure Triangulates (q : QT) (tris : List (Nat × Nat × Nat)) : Prop where
  size : 0 < q.length
  coords : ∀ p ∈ q.generators ++ q.guards, (cmin2 ≤ p.x ∧ p.x ≤ cmax2) ∧ cmin2 ≤ p.y ∧ p.y ≤ cmax2
  nonempty : tris ≠ []
  ccw : ∀ t ∈ tris, ∃ A B C, ptAt q t.1 = some A ∧ ptAt q t.2.1 = some B ∧ ptAt q t.2.2 = some C ∧ 0 < area2 A B C
  fits : ∀ t ∈ tris, Touches q t → ∀ X, Equidistant q t X → Fits q X

theorem grid2 : IsGrid cmin2 cmax2 := Or.inl ⟨rfl, rfl⟩

/-- Below the range, too, a coordinate is off by less than one quantum. -/
theorem quantize_near {length xmin x : ℝ} (hl : 0 < length) (h0 : xmin - length / 2 ≤ x) (h1 : x ≤ xmin + length) :
    ∃ k, quantize1 cmin2 cmax2 length xmin x = .ok k ∧ |dequantize1 cmin2 cmax2 length xmin k - x| < quantum cmin2 cmax2 length := by
  by_cases hx : xmin ≤ x
  · obtain ⟨k, e, _, _, h2, h3⟩ := C36_quantize grid2 hl hx h1
    exact ⟨k, e, by rw [abs_lt]; constructor <;> linarith⟩
  · have q0 := quantum_pos grid2 hl
    have hm := quantum_mul grid2 (length := length)
    rw [show ((cmax2 - cmin2 : Int) : ℝ) = 2147483647 by norm_num [cmin2, cmax2]] at hm
    set q := quantum cmin2 cmax2 length with hq
    set t := (x - xmin) / q with ht
    have tq : t * q = x - xmin := by rw [ht]; field_simp
    have t0 : ¬ 0 ≤ t := by
      intro h
      have := mul_nonneg h q0.le
      linarith
    have t1 : -1073741824 ≤ t := by
      rw [ht, le_div_iff₀ q0]; linarith
    have f1 : (-1073741824 : Int) ≤ ⌈t⌉ := by
      have := Int.le_ceil t
      have : ((-1073741824 : Int) : ℝ) ≤ ⌈t⌉ := by push_cast; linarith
      exact_mod_cast this
    have f2 : ⌈t⌉ ≤ 0 := Int.ceil_le.2 (by push_cast; linarith)
    refine ⟨cmin2 + ⌈t⌉, ?_, ?_⟩
    · unfold quantize1 divToInt
      rw [if_neg (by rw [← hq]; exact q0.ne'), ← hq, ← ht]
      unfold toInt
      simp only [if_neg t0]
      rw [if_pos (by omega), Res.ok_bind, addInt, if_pos (by unfold cmin2; omega)]
    · unfold dequantize1
      rw [show cmin2 + ⌈t⌉ - cmin2 = ⌈t⌉ by ring, ← hq]
      have a1 := Int.le_ceil t
      have a2 := Int.ceil_lt_add_one t
      rw [abs_lt]
      constructor <;> nlinarith

theorem ptAt_rd {q : QT} {k : Nat} {A : V2 ℝ} (h : ptAt q k = some A) : rd ((q.generators ++ q.guards).map (dequantize2 q)) k = .ok A := by
  rw [rd_eq_ok, List.getElem?_map]; exact h

theorem ptAt_stable {q : QT} {k : Nat} {A : V2 ℝ} (hl : 0 < q.length) (hr : ∀ p ∈ q.generators ++ q.guards, (cmin2 ≤ p.x ∧ p.x ≤ cmax2) ∧ cmin2 ≤ p.y ∧ p.y ≤ cmax2) (h : ptAt q k = some A) :
    ∃ a : P2, quantize2 q A = .ok a ∧ A = ⟨dequantize1 cmin2 cmax2 q.length q.xmin a.1, dequantize1 cmin2 cmax2 q.length q.ymin a.2⟩ := by
  obtain ⟨p, hp, rfl⟩ := Option.map_eq_some_iff.1 h
  obtain ⟨⟨h1, h2⟩, h3, h4⟩ := hr p (List.mem_of_getElem? hp)
  refine ⟨(p.x, p.y), ?_, rfl⟩
  unfold quantize2 dequantize2
  rw [C36_stable grid2 hl h1 h2, Res.ok_bind, C36_stable grid2 hl h3 h4, Res.ok_bind]; rfl

/-- Three points that are not on one line have one centre. -/
theorem centre_unique {A B C X Y : V2 ℝ} (h : area2 A B C ≠ 0) (h1 : sq2 X A = sq2 X B) (h2 : sq2 X B = sq2 X C) (h3 : sq2 Y A = sq2 Y B) (h4 : sq2 Y B = sq2 Y C) : X = Y := by
  unfold sq2 at h1 h2 h3 h4
  have e1 : (X.x - Y.x) * (B.x - A.x) + (X.y - Y.y) * (B.y - A.y) = 0 := by linarith
  have e2 : (X.x - Y.x) * (C.x - A.x) + (X.y - Y.y) * (C.y - A.y) = 0 := by linarith
  have f1 : (X.x - Y.x) * area2 A B C = 0 := by unfold area2; linear_combination (C.y - A.y) * e1 - (B.y - A.y) * e2
  have f2 : (X.y - Y.y) * area2 A B C = 0 := by unfold area2; linear_combination (B.x - A.x) * e2 - (C.x - A.x) * e1
  cases X; cases Y
  simp only [V2.mk.injEq]
  exact ⟨sub_eq_zero.1 ((mul_eq_zero.1 f1).resolve_right h), sub_eq_zero.1 ((mul_eq_zero.1 f2).resolve_right h)⟩

/-- One triangle: it counts if it has a generator, and its node is less than a quantum from its centre. -/
theorem centre_spec (dbg : Bool) {q : QT} {tris : List (Nat × Nat × Nat)} (h : Triangulates q tris) {t : Tri3} (ht : t ∈ tris) :
    Proper t ∧ (∀ g ∈ corners t, g < (q.generators ++ q.guards).length) ∧
    ∃ o, triCentre dbg q ((q.generators ++ q.guards).map (dequantize2 q)) q.generators.length t = .ok o ∧ (o.isSome ↔ Touches q t) ∧
      ∀ c, o = some c → ∃ X, Equidistant q t X ∧ (∀ Y, Equidistant q t Y → Y = X) ∧ quantize2 q X = .ok c ∧ |dequantize1 cmin2 cmax2 q.length q.xmin c.1 - X.x| < quantum cmin2 cmax2 q.length ∧ |dequantize1 cmin2 cmax2 q.length q.ymin c.2 - X.y| < quantum cmin2 cmax2 q.length := by
  obtain ⟨i, j, k⟩ := t
  obtain ⟨A, B, C, hA, hB, hC, harea⟩ := h.ccw _ ht
  dsimp only at hA hB hC
  have horient : orient2d A B C = area2 A B C := by simp only [orient2d, area2]; ring
  have hAB : A ≠ B := by rintro rfl; unfold area2 at harea; linarith
  have hBC : B ≠ C := by rintro rfl; unfold area2 at harea; linarith
  have hAC : A ≠ C := by rintro rfl; unfold area2 at harea; linarith
  have hprop : i ≠ j ∧ i ≠ k ∧ j ≠ k := by
    refine ⟨?_, ?_, ?_⟩
    · rintro rfl; rw [hA] at hB; exact hAB (Option.some.inj hB)
    · rintro rfl; rw [hA] at hC; exact hAC (Option.some.inj hC)
    · rintro rfl; rw [hB] at hC; exact hBC (Option.some.inj hC)
  have hlt : ∀ {g : Nat} {P : V2 ℝ}, ptAt q g = some P → g < (q.generators ++ q.guards).length := by
    intro g P hg
    obtain ⟨p, hp, _⟩ := Option.map_eq_some_iff.1 hg
    exact (List.getElem?_eq_some_iff.1 hp).1
  obtain ⟨a, ea, fa⟩ := ptAt_stable h.size h.coords hA
  obtain ⟨b, eb, fb⟩ := ptAt_stable h.size h.coords hB
  obtain ⟨c, ec, fc⟩ := ptAt_stable h.size h.coords hC
  have hq : a ≠ b ∧ b ≠ c ∧ a ≠ c := by
    refine ⟨?_, ?_, ?_⟩
    · rintro rfl; exact hAB (fa.trans fb.symm)
    · rintro rfl; exact hBC (fb.trans fc.symm)
    · rintro rfl; exact hAC (fa.trans fc.symm)
  have htouch : Touches q (i, j, k) ↔ (i < q.generators.length ∨ j < q.generators.length ∨ k < q.generators.length) := by
    simp [Touches, corners]
  refine ⟨hprop, ?_, ?_⟩
  · intro g hg
    simp only [corners, List.mem_cons, List.not_mem_nil, or_false] at hg
    rcases hg with rfl | rfl | rfl
    · exact hlt hA
    · exact hlt hB
    · exact hlt hC
  unfold triCentre
  rw [Res.assert_true dbg hprop, Res.ok_bind, ptAt_rd hA, Res.ok_bind, ptAt_rd hB, Res.ok_bind, ptAt_rd hC, Res.ok_bind, Res.assert_true dbg (by rw [horient]; exact harea), Res.ok_bind,
    ea, Res.ok_bind, eb, Res.ok_bind, ec, Res.ok_bind]
  by_cases hT : Touches q (i, j, k)
  · rw [if_pos ⟨htouch.1 hT, hq⟩, if_neg (by rw [horient]; exact harea.ne')]
    obtain ⟨h1, h2⟩ := C26_circumcenter A B C harea.ne'
    have hE : Equidistant q (i, j, k) (circumcenter A B C) := ⟨A, B, C, hA, hB, hC, h1, h2⟩
    obtain ⟨f1, f2, f3, f4⟩ := h.fits _ ht hT _ hE
    obtain ⟨x, ex, nx⟩ := quantize_near h.size f1 f2
    obtain ⟨y, ey, ny⟩ := quantize_near h.size f3 f4
    have eq : quantize2 q (circumcenter A B C) = .ok (x, y) := by
      unfold quantize2
      rw [ex, Res.ok_bind, ey, Res.ok_bind]; rfl
    refine ⟨some (x, y), by rw [eq]; rfl, by simp [hT], ?_⟩
    · intro c hc
      injection hc with hc; subst hc
      refine ⟨_, hE, ?_, eq, nx, ny⟩
      rintro Y ⟨A', B', C', h1', h2', h3', g1, g2⟩
      rw [hA] at h1'; rw [hB] at h2'; rw [hC] at h3'
      injection h1' with h1'; injection h2' with h2'; injection h3' with h3'
      subst h1'; subst h2'; subst h3'
      exact centre_unique harea.ne' g1 g2 h1 h2
  · rw [if_neg (by rw [← htouch]; tauto)]
    exact ⟨none, rfl, by simp [hT], by simp⟩

/-- C68: from triangles that surround every generator, the cells that are dual to them. There is one node for every triangle with a generator, in the order of the triangles and less than one quantum
in each coordinate from a point that has the same distance from the three corners. -/
theorem C68_dual (delaunay : List (V2 ℝ) → List (Nat × Nat × Nat)) (dbg : Bool) {q : QT} {tris : List (Nat × Nat × Nat)} (hd : delaunay ((q.generators ++ q.guards).map (dequantize2 q)) = tris)
    (h : Triangulates q tris) (hF : ∀ p, p < q.generators.length → ∃ ts gs, Fan tris p ts gs)
    (h2 : dbg = true → TwoPerEdge tris) :
    ∃ nodes edges cells, triangleTess delaunay dbg q = .ok { q with nodes := nodes, edges := edges, cellEdges := cells } ∧
      Dual (tris.filter fun t => decide (Touches q t)) q.generators.length edges cells ∧
      List.Forall₂ (fun t (c : IPt) => ∃ X, Equidistant q t X ∧ (∀ Y, Equidistant q t Y → Y = X) ∧ quantize2 q X = .ok (c.x, c.y) ∧ |(dequantize2 q c).x - X.x| < quantum cmin2 cmax2 q.length ∧ |(dequantize2 q c).y - X.y| < quantum cmin2 cmax2 q.length)
        (tris.filter fun t => decide (Touches q t)) nodes := by
  classical
  have hF' := hF
  replace hF : ∀ p, p < q.generators.length → ∃ ts gs, Fan (tris.filter fun t => decide (Touches q t)) p ts gs := by
    intro p hp
    obtain ⟨ts, gs, hf⟩ := hF' p hp
    exact ⟨_, gs, fan_filter (fun t _ hpt => by simpa using ⟨p, hpt, hp⟩) hf⟩
  replace h2 : dbg = true → TwoPerEdge (tris.filter fun t => decide (Touches q t)) := fun hd => two_filter (h2 hd)
  have hex : ∀ t, ∃ o : Option P2, t ∈ tris → triCentre dbg q ((q.generators ++ q.guards).map (dequantize2 q)) q.generators.length t = .ok o ∧ (o.isSome ↔ Touches q t) ∧
      ∀ c, o = some c → ∃ X, Equidistant q t X ∧ (∀ Y, Equidistant q t Y → Y = X) ∧ quantize2 q X = .ok c ∧ |dequantize1 cmin2 cmax2 q.length q.xmin c.1 - X.x| < quantum cmin2 cmax2 q.length ∧ |dequantize1 cmin2 cmax2 q.length q.ymin c.2 - X.y| < quantum cmin2 cmax2 q.length := by
    intro t
    by_cases ht : t ∈ tris
    · obtain ⟨_, _, o, ho⟩ := centre_spec dbg h ht
      exact ⟨o, fun _ => ho⟩
    · exact ⟨none, fun h => absurd h ht⟩
  choose cf hcf using hex
  have hkept : ∀ l : List Tri3, (∀ t ∈ l, t ∈ tris) → (kept cf l).map Prod.fst = l.filter (fun t => decide (Touches q t)) ∧
      List.Forall₂ (fun t (c : P2) => ∃ X, Equidistant q t X ∧ (∀ Y, Equidistant q t Y → Y = X) ∧ quantize2 q X = .ok c ∧ |dequantize1 cmin2 cmax2 q.length q.xmin c.1 - X.x| < quantum cmin2 cmax2 q.length ∧
        |dequantize1 cmin2 cmax2 q.length q.ymin c.2 - X.y| < quantum cmin2 cmax2 q.length) ((kept cf l).map Prod.fst) ((kept cf l).map Prod.snd) := by
    intro l
    induction l with
    | nil => intro _; exact ⟨rfl, List.Forall₂.nil⟩
    | cons t l ih =>
      intro hl
      obtain ⟨i1, i2⟩ := ih fun t ht => hl t (by simp [ht])
      obtain ⟨_, h1, h3⟩ := hcf t (hl t (by simp))
      unfold kept at i1 i2 ⊢
      rw [List.filterMap_cons, List.filter_cons]
      cases hc : cf t with
      | none =>
        rw [hc] at h1
        have : ¬ Touches q t := by rw [← h1]; simp
        simp only [Option.map_none, this, decide_false]
        exact ⟨by simpa using i1, i2⟩
      | some c =>
        rw [hc] at h1
        have : Touches q t := by rw [← h1]; simp
        simp only [Option.map_some, this, decide_true, if_true, List.map_cons]
        exact ⟨by rw [i1], List.Forall₂.cons (h3 c hc) i2⟩
  obtain ⟨k1, k2⟩ := hkept tris fun _ h => h
  obtain ⟨edges, cells, e, hDual⟩ := read_spec dbg (centre := triCentre dbg q ((q.generators ++ q.guards).map (dequantize2 q)) q.generators.length) (cf := cf) (n := q.generators.length)
    (total := ((q.generators ++ q.guards).map (dequantize2 q)).length) (tris := tris) (by simp) (fun t ht => (hcf t ht).1)
    (fun t ht _ => by obtain ⟨a, b, _⟩ := centre_spec dbg h ht; exact ⟨a, by simpa using b⟩) (by rw [k1]; exact h2) (by rw [k1]; exact hF)
  rw [k1] at hDual k2
  refine ⟨((kept cf tris).map Prod.snd).map fun p => ⟨p.1, p.2, 0⟩, edges, cells, ?_, hDual, ?_⟩
  · unfold triangleTess
    dsimp only
    rw [hd, if_neg h.nonempty, e, Res.ok_bind]; rfl
  · rw [List.forall₂_map_right_iff]
    exact k2

/-- The cells of C68 and the mesh that is read out of them, in one statement. -/
theorem mesh_spec (delaunay : List (V2 ℝ) → List (Nat × Nat × Nat)) (dbg : Bool) {q : QT} {tris : List (Nat × Nat × Nat)} (hd : delaunay ((q.generators ++ q.guards).map (dequantize2 q)) = tris)
    (h : Triangulates q tris) (hF : ∀ p, p < q.generators.length → ∃ ts gs, Fan tris p ts gs)
    (h2 : dbg = true → TwoPerEdge tris) :
    ∃ nodes edges cells m, triangleTess delaunay dbg q = .ok { q with nodes := nodes, edges := edges, cellEdges := cells } ∧ fillTess dbg { q with nodes := nodes, edges := edges, cellEdges := cells } {} = .ok m ∧
      Dual (tris.filter fun t => decide (Touches q t)) q.generators.length edges cells ∧
      List.Forall₂ (fun t (c : IPt) => ∃ X, Equidistant q t X ∧ (∀ Y, Equidistant q t Y → Y = X) ∧ quantize2 q X = .ok (c.x, c.y) ∧ |(dequantize2 q c).x - X.x| < quantum cmin2 cmax2 q.length ∧ |(dequantize2 q c).y - X.y| < quantum cmin2 cmax2 q.length)
        (tris.filter fun t => decide (Touches q t)) nodes ∧
      Consistent 2 m ∧ m.cells = cells ∧ m.faces = edges.map (fun e => [e.1.toNat, e.2.toNat]) ∧ (∀ (i : Nat) (c : IPt), nodes[i]? = some c → node 2 m i = [(dequantize2 q c).x, (dequantize2 q c).y]) ∧
      numNodes 2 m = nodes.length ∧ ∀ f, f < m.faces.length → (cellsOf m f).length = cells.flatten.countP (fun s => decide (index s = f)) := by
  obtain ⟨nodes, edges, cells, e, hD, hN⟩ := C68_dual delaunay dbg hd h hF h2
  have hnl := hN.length_eq
  have hidx : ∀ p, p < q.generators.length → ∀ s ∈ cells.getD p [], index s < edges.length := by
    intro p hp s hs
    obtain ⟨ts, gs, hf⟩ := hF p hp
    obtain ⟨us, _, _, hm⟩ := hD.around p hp _ gs (fan_filter (fun t _ hpt => by simpa using ⟨p, hpt, hp⟩) hf)
    have : directed edges s ∈ (cells.getD p []).map (directed edges) := List.mem_map_of_mem hs
    rw [hm] at this
    obtain ⟨x, _, hx⟩ := List.mem_map.1 this
    rcases directed_index hx.symm with h | h <;> exact (List.getElem?_eq_some_iff.1 h).1
  have hok : QTOK { q with nodes := nodes, edges := edges, cellEdges := cells } := by
    refine ⟨hD.cells_len, ?_, ?_⟩
    · intro C hC s hs
      obtain ⟨p, hp, rfl⟩ := List.getElem_of_mem hC
      have hp' : p < q.generators.length := by rw [← hD.cells_len]; exact hp
      have := hidx p hp' s (by simpa [List.getD, hp] using hs)
      exact this
    · intro x hx
      have := hD.ends x hx
      rw [hnl] at this
      exact ⟨this.1, lt_trans this.2.1 this.2.2, le_trans this.1 this.2.1.le, this.2.2⟩
  have hcount : ∀ (l : List Int) (f : Nat), l.countP (fun s => decide (index s = f)) = l.count (f : Int) + l.count (flip f) := by
    intro l f
    induction l with
    | nil => rfl
    | cons s l ih =>
      rw [List.countP_cons, List.count_cons, List.count_cons, ih]
      have ff : (f : Int) ≠ flip f := by unfold flip; omega
      have hs : index s = f ↔ s = (f : Int) ∨ s = flip f := by unfold index flip; split <;> omega
      by_cases h1 : s = (f : Int)
      · have h2 : s ≠ flip f := by rw [h1]; exact ff
        rw [if_pos (by simpa using hs.2 (Or.inl h1)), if_pos (by simpa using h1), if_neg (by simpa using h2)]; omega
      · by_cases h2 : s = flip f
        · rw [if_pos (by simpa using hs.2 (Or.inr h2)), if_neg (by simpa using h1), if_pos (by simpa using h2)]; omega
        · rw [if_neg (by rw [decide_eq_true_eq, hs]; tauto), if_neg (by simpa using h1), if_neg (by simpa using h2)]; omega
  obtain ⟨m, e1, hc, hsplit⟩ := C39_uses dbg hok fun f hf => by
    have := hD.uses f hf
    rw [hcount] at this
    exact this
  obtain ⟨m', e2, g1, g2, g3, g4, _⟩ := C39_fill dbg hok
  rw [e1] at e2; injection e2 with e2; subst e2
  refine ⟨nodes, edges, cells, m, e, e1, hD, hN, hc, g1, g2, g3, g4, ?_⟩
  intro f hf
  obtain ⟨s1, s2⟩ := hsplit f hf
  have : (cellsOf m f).length = ((cellsOf m f).filter fun s => decide (0 ≤ s)).length + ((cellsOf m f).filter fun s => decide (s < 0)).length := by
    generalize cellsOf m f = l
    induction l with
    | nil => rfl
    | cons x l ih =>
      rw [List.length_cons, ih]
      by_cases hx : 0 ≤ x
      · have : ¬ x < 0 := by omega
        simp [hx]; omega
      · have : x < 0 := by omega
        simp [hx, this]; omega
  rw [this, s1, s2, hcount]

/-- C68: read out as a mesh, the cells and edges fit together: the mesh is consistent, there is one cell per generator, one node per triangle, and no face bounds more than two cells. -/
theorem C68_mesh (delaunay : List (V2 ℝ) → List (Nat × Nat × Nat)) (dbg : Bool) {q : QT} {tris : List (Nat × Nat × Nat)} (hd : delaunay ((q.generators ++ q.guards).map (dequantize2 q)) = tris)
    (h : Triangulates q tris) (hF : ∀ p, p < q.generators.length → ∃ ts gs, Fan tris p ts gs)
    (h2 : dbg = true → TwoPerEdge tris) :
    ∃ q' m, triangleTess delaunay dbg q = .ok q' ∧ fillTess dbg q' {} = .ok m ∧ Consistent 2 m ∧ m.cells.length = q.generators.length ∧
      numNodes 2 m = (tris.filter fun t => decide (Touches q t)).length ∧ (∀ F ∈ m.faces, ∃ a b, a ≠ b ∧ F = [a, b]) ∧ m.faces.Nodup := by
  obtain ⟨nodes, edges, cells, m, e, e1, hD, hN, hc, g1, g2, g3, g4, _⟩ := mesh_spec delaunay dbg hd h hF h2
  have hnl := hN.length_eq
  refine ⟨_, m, e, e1, hc, ?_, ?_, ?_, ?_⟩
  · rw [g1]; exact hD.cells_len
  · rw [g4]; exact hnl.symm
  · intro F hF'
    rw [g2] at hF'
    obtain ⟨x, hx, rfl⟩ := List.mem_map.1 hF'
    have := hD.ends x hx
    exact ⟨_, _, by omega, rfl⟩
  · rw [g2]
    apply List.Nodup.map_on _ hD.edges_once
    intro x hx y hy hxy
    have := hD.ends x hx
    have := hD.ends y hy
    simp only [List.cons.injEq, and_true] at hxy
    exact Prod.ext (by omega) (by omega)
theorem ptAt_grid (q : QT) (k : Nat) : ptAt q k = ((q.generators ++ q.guards)[k]?).map fun p => onGrid q.xmin q.ymin (quantum cmin2 cmax2 q.length) (p.x - cmin2, p.y - cmin2) := by
  unfold ptAt
  congr 1
  funext p
  unfold dequantize2 dequantize1 onGrid
  simp only [V2.mk.injEq]
  constructor <;> ring

/-- Two generators at (100, 100) and (200, 100), one grid step to the unit, among guards at (150, 200), (150, 0), (0, 100) and (300, 100). -/
noncomputable def twoGens : QT where
  xmin := 0
  ymin := 0
  length := 2147483647
  generators := [⟨cmin2 + 100, cmin2 + 100, 0⟩, ⟨cmin2 + 200, cmin2 + 100, 1⟩]
  guards := [⟨cmin2 + 150, cmin2 + 200, 2⟩, ⟨cmin2 + 150, cmin2 + 0, 3⟩, ⟨cmin2 + 0, cmin2 + 100, 4⟩, ⟨cmin2 + 300, cmin2 + 100, 5⟩]

def twoTris : List (Nat × Nat × Nat) := [(0, 1, 2), (1, 0, 3), (0, 2, 4), (0, 4, 3), (1, 5, 2), (1, 3, 5)]

theorem twoGens_pt (k : Nat) : ptAt twoGens k = ([(100, 100), (200, 100), (150, 200), (150, 0), (0, 100), (300, 100)] : List (Int × Int))[k]?.map (onGrid 0 0 1) := by
  rw [ptAt_grid]
  have hq : quantum cmin2 cmax2 (2147483647 : ℝ) = 1 := by unfold quantum; norm_num [cmin2, cmax2]
  show Option.map (fun p : IPt => onGrid 0 0 (quantum cmin2 cmax2 2147483647) (p.x - cmin2, p.y - cmin2)) _ = _
  rw [hq, ← List.getElem?_map, ← List.getElem?_map]
  simp [twoGens]

theorem two_ok : Triangulates twoGens twoTris := by
  refine ⟨by simp [twoGens], ?_, by simp [twoTris], ?_, ?_⟩
  · simp [twoGens, cmin2, cmax2]
  · intro t ht
    simp only [twoGens_pt]
    simp only [twoTris, List.mem_cons, List.not_mem_nil, or_false] at ht
    rcases ht with rfl | rfl | rfl | rfl | rfl | rfl <;> exact ⟨_, _, _, rfl, rfl, rfl, by norm_num [area2, onGrid]⟩
  · rintro t ht _ X ⟨A, B, C, hA, hB, hC, h1, h2⟩
    simp only [twoGens_pt] at hA hB hC
    simp only [twoTris, List.mem_cons, List.not_mem_nil, or_false] at ht
    unfold Fits
    rcases ht with rfl | rfl | rfl | rfl | rfl | rfl <;>
    · injection hA with hA; injection hB with hB; injection hC with hC
      subst hA; subst hB; subst hC
      norm_num [onGrid, sq2] at h1 h2
      simp only [twoGens]
      refine ⟨?_, ?_, ?_, ?_⟩ <;> linarith

theorem two_fans : ∀ p, p < twoGens.generators.length → ∃ ts gs, Fan twoTris p ts gs := by
  intro p hp
  have : p = 0 ∨ p = 1 := by simp [twoGens] at hp; omega
  rcases this with rfl | rfl
  · exact ⟨[0, 2, 3, 1], [1, 2, 4, 3], fan_of_check (by decide +kernel)⟩
  · exact ⟨[0, 1, 5, 4], [2, 0, 3, 5], fan_of_check (by decide +kernel)⟩

theorem two_two : TwoPerEdge twoTris := two_of_check (by decide +kernel)

example : ∃ (delaunay : List (V2 ℝ) → List (Nat × Nat × Nat)) (q : QT) (tris : List (Nat × Nat × Nat)), delaunay ((q.generators ++ q.guards).map (dequantize2 q)) = tris ∧ Triangulates q tris ∧
    (∀ p, p < q.generators.length → ∃ ts gs, Fan tris p ts gs) ∧ TwoPerEdge tris ∧ q.generators.length = 2 := ⟨fun _ => twoTris, twoGens, twoTris, rfl, two_ok, two_fans, two_two, rfl⟩
end Verif.Tri
