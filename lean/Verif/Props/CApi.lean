import Verif.Spec.CApi
import Verif.Spec.Mesh
import Mathlib.Tactic.Ring
/- C74, C75, C76: the C interface. -/
namespace Verif.CApi
open Verif Verif.Mesh

/-! ### C74: meshes -/

theorem get_eq {α : Type} {a : Arr α} {i : Nat} {x : α} (h : a[i]? = some (some x)) : get a i = .ok x := by unfold get; rw [h]

theorem mapM_range {β : Type} {f : Nat → Res β} : ∀ {l : List β} {k : Nat}, (∀ (i : Nat) (x : β), l[i]? = some x → f (k + i) = .ok x) → (List.range' k l.length).mapM f = .ok l
  | [], _, _ => rfl
  | x :: l, k, h => by
    rw [List.length_cons, List.range'_succ, List.mapM_cons, show f k = .ok x from h 0 x rfl, Res.bind_eq, Res.bind_ok, mapM_range (l := l) (k := k + 1) (fun i y hi => by
      have := h (i + 1) y (by simpa using hi)
      rwa [show k + (i + 1) = k + 1 + i by omega] at this)]
    rfl

theorem mapM_range0 {β : Type} {f : Nat → Res β} {l : List β} (h : ∀ (i : Nat) (x : β), l[i]? = some x → f i = .ok x) : (List.range l.length).mapM f = .ok l := by
  rw [List.range_eq_range']
  exact mapM_range fun i x hi => by rw [Nat.zero_add]; exact h i x hi

theorem mapM_parts {α β : Type} {f : α → Res β} : ∀ {l : List α} {l' : List β}, l.mapM f = .ok l' → (∀ b ∈ l', ∃ a ∈ l, f a = .ok b) ∧ ∀ a ∈ l, ∃ b ∈ l', f a = .ok b
  | [], l', h => by
    obtain rfl : [] = l' := Res.ok.inj h
    simp
  | a :: l, l', h => by
    rw [List.mapM_cons] at h
    obtain ⟨b, hb, h⟩ := Res.bind_eq_ok.1 h
    obtain ⟨bs, hbs, h⟩ := Res.bind_eq_ok.1 h
    obtain rfl : b :: bs = l' := Res.ok.inj h
    have ih := mapM_parts hbs
    simp only [List.mem_cons, forall_eq_or_imp, exists_eq_or_imp]
    exact ⟨⟨.inl hb, fun x hx => .inr (ih.1 x hx)⟩, .inl hb, fun x hx => .inr (ih.2 x hx)⟩

theorem copyFrom_ok {α : Type} {a : Arr α} {l : List α} (h : Holds a l) : copyFrom a l.length = .ok l := mapM_range0 fun i x hi => get_eq (h i x hi)

theorem uncrs_ok {α : Type} {offs : Arr Int} {data : Arr α} {rows : List (List α)} (h : CRS offs data rows) : (List.range rows.length).mapM (uncrsRow offs data) = .ok rows := by
  refine mapM_range0 fun i r hi => ?_
  obtain ⟨a, h1, h2, h3⟩ := h i r hi
  unfold uncrsRow
  rw [get_eq h1, Res.bind_eq, Res.bind_ok, get_eq h2, Res.bind_eq, Res.bind_ok, if_neg (by push_cast; omega)]
  rw [show (((a + r.length : Nat) : Int) - (a : Int)).toNat = r.length by push_cast; omega]
  exact mapM_range0 fun j x hj => by rw [Int.toNat_natCast]; exact get_eq (h3 j x hj)

theorem copyTo_ok {α : Type} : ∀ {l : List α} {a : Arr α} {i : Nat}, i + l.length ≤ a.length →
    ∃ a', copyTo a i l = .ok a' ∧ a'.length = a.length ∧ (∀ k < i, a'[k]? = a[k]?) ∧ (∀ k, i + l.length ≤ k → a'[k]? = a[k]?) ∧ ∀ (j : Nat) (x : α), l[j]? = some x → a'[i + j]? = some (some x)
  | [], a, i, _ => ⟨a, rfl, rfl, fun _ _ => rfl, fun _ _ => rfl, by simp⟩
  | x :: l, a, i, h => by
    simp only [List.length_cons] at h
    obtain ⟨a', e, h1, h2, h3, h4⟩ := copyTo_ok (l := l) (a := a.set i (some x)) (i := i + 1) (by rw [List.length_set]; omega)
    refine ⟨a', ?_, by rw [h1, List.length_set], fun k hk => ?_, fun k hk => ?_, fun j y hj => ?_⟩
    · unfold copyTo; rw [wr_lt (by omega), Res.bind_eq, Res.bind_ok, e]
    · rw [h2 k (by omega), List.getElem?_set_ne (by omega)]
    · simp only [List.length_cons] at hk
      rw [h3 k (by omega), List.getElem?_set_ne (by omega)]
    · match j, hj with
      | 0, hj =>
        obtain rfl : x = y := by simpa using hj
        rw [h2 (i + 0) (by omega), Nat.add_zero, List.getElem?_set_self (by omega)]
      | j + 1, hj =>
        have := h4 j y (by simpa using hj)
        rwa [show i + 1 + j = i + (j + 1) by omega] at this

theorem malloc_len {α : Type} {n : Nat} : (malloc (α := α) n).length = n := List.length_replicate ..

theorem copy_holds {α : Type} {l : List α} {n : Nat} (h : l.length ≤ n) : ∃ a, copyTo (malloc n) 0 l = .ok a ∧ a.length = n ∧ Holds a l := by
  obtain ⟨a, e, h1, _, _, h4⟩ := copyTo_ok (l := l) (a := malloc n) (i := 0) (by rw [malloc_len]; omega)
  exact ⟨a, e, by rw [h1, malloc_len], fun j x hj => by have := h4 j x hj; rwa [Nat.zero_add] at this⟩

theorem crsLoop_ok {α : Type} : ∀ {rows : List (List α)} {offs : Arr Int} {data : Arr α} {i offset : Nat}, i + rows.length < offs.length → offset + rows.flatten.length ≤ data.length →
    ∃ offs' data', crsLoop offs data i offset rows = .ok (offs', data') ∧ (∀ k < i, offs'[k]? = offs[k]?) ∧ offs'[i]? = some (some (offset : Int)) ∧ (∀ k < offset, data'[k]? = data[k]?) ∧ (∀ k, i + rows.length < k → offs'[k]? = offs[k]?) ∧
      ∀ (k : Nat) (r : List α), rows[k]? = some r → ∃ a : Nat, offs'[i + k]? = some (some (a : Int)) ∧ offs'[i + k + 1]? = some (some ((a + r.length : Nat) : Int)) ∧
        ∀ (j : Nat) (x : α), r[j]? = some x → data'[a + j]? = some (some x)
  | [], offs, data, i, offset, h, _ => by
    refine ⟨offs.set i (some (offset : Int)), data, ?_, fun k hk => List.getElem?_set_ne (by omega), List.getElem?_set_self (by simpa using h), fun _ _ => rfl, fun k hk => List.getElem?_set_ne (by simp at hk; omega), by simp⟩
    unfold crsLoop; rw [wr_lt (by simpa using h)]; rfl
  | r :: rs, offs, data, i, offset, h, hd => by
    simp only [List.length_cons, List.flatten_cons, List.length_append] at h hd
    obtain ⟨d1, e1, c1, c2, _, c4⟩ := copyTo_ok (l := r) (a := data) (i := offset) (by omega)
    obtain ⟨o2, d2, e2, p1, p2, p3, p5, p4⟩ := crsLoop_ok (rows := rs) (offs := offs.set i (some (offset : Int))) (data := d1) (i := i + 1) (offset := offset + r.length) (by rw [List.length_set]; omega) (by omega)
    refine ⟨o2, d2, ?_, fun k hk => by rw [p1 k (by omega), List.getElem?_set_ne (by omega)], by rw [p1 i (by omega), List.getElem?_set_self (by omega)], fun k hk => by rw [p3 k (by omega), c2 k hk], fun k hk => by
      simp only [List.length_cons] at hk
      rw [p5 k (by omega), List.getElem?_set_ne (by omega)], ?_⟩
    · unfold crsLoop
      rw [wr_lt (by omega), Res.bind_eq, Res.bind_ok, e1, Res.bind_eq, Res.bind_ok, e2]
    · intro k r' hk
      match k, hk with
      | 0, hk =>
        obtain rfl : r = r' := by simpa using hk
        refine ⟨offset, by rw [Nat.add_zero, p1 i (by omega), List.getElem?_set_self (by omega)], by rw [Nat.add_zero, p2], fun j x hj => ?_⟩
        rw [p3 (offset + j) (by have := (List.getElem?_eq_some_iff.1 hj).1; omega)]
        exact c4 j x hj
      | k + 1, hk =>
        obtain ⟨a, q1, q2, q3⟩ := p4 k r' (by simpa using hk)
        refine ⟨a, ?_, ?_, q3⟩
        · rwa [show i + 1 + k = i + (k + 1) by omega] at q1
        · rwa [show i + 1 + k + 1 = i + (k + 1) + 1 by omega] at q2

theorem crs_ok {α : Type} {rows : List (List α)} {n : Nat} (h : rows.length ≤ n) : ∃ offs data, crs n rows = .ok (offs, data) ∧ CRS offs data rows := by
  obtain ⟨o, d, e, _, _, _, _, h4⟩ := crsLoop_ok (rows := rows) (offs := malloc (n + 1)) (data := malloc (rows.flatten.length + 1)) (i := 0) (offset := 0) (by rw [malloc_len]; omega) (by rw [malloc_len]; omega)
  refine ⟨o, d, e, fun i r hi => ?_⟩
  have := h4 i r hi
  simpa using this

theorem faceCells_ok : ∀ {cs : List (List Int)} {a : Arr Int} {f : Nat}, (∀ l ∈ cs, l.length = 1 ∨ l.length = 2) → 2 * (f + cs.length) ≤ a.length →
    ∃ a', faceCellsLoop a f cs = .ok a' ∧ (∀ k < 2 * f, a'[k]? = a[k]?) ∧ ∀ (k : Nat) (l : List Int), cs[k]? = some l →
      (∀ x, l = [x] → a'[2 * (f + k)]? = some (some x) ∧ a'[2 * (f + k) + 1]? = some (some (-1))) ∧ ∀ x y, l = [x, y] → a'[2 * (f + k)]? = some (some x) ∧ a'[2 * (f + k) + 1]? = some (some y)
  | [], a, f, _, _ => ⟨a, rfl, fun _ _ => rfl, by simp⟩
  | c :: cs, a, f, hs, h => by
    simp only [List.length_cons] at h
    have hc := hs c (List.mem_cons_self ..)
    obtain ⟨x, y, hx, hy, h1, h2⟩ : ∃ x y, c[0]? = some x ∧ (if c.length = 2 then rd c 1 else .ok (-1) : Res Int) = .ok y ∧ (∀ z, c = [z] → x = z ∧ y = -1) ∧ ∀ z w, c = [z, w] → x = z ∧ y = w := by
      match c, hc with
      | [z], _ => exact ⟨z, -1, rfl, rfl, by simp, by simp⟩
      | [z, w], _ => exact ⟨z, w, rfl, rfl, by simp, by simp⟩
      | [], hc => simp at hc
      | _ :: _ :: _ :: _, hc => simp at hc
    obtain ⟨a', e, p1, p2⟩ := faceCells_ok (cs := cs) (a := (a.set (2 * f) (some x)).set (2 * f + 1) (some y)) (f := f + 1) (fun l hl => hs l (List.mem_cons_of_mem _ hl)) (by simp only [List.length_set]; omega)
    refine ⟨a', ?_, fun k hk => ?_, fun k l hk => ?_⟩
    · unfold faceCellsLoop
      rw [rd_eq_ok.2 hx, Res.bind_eq, Res.bind_ok, wr_lt (by omega), Res.bind_eq, Res.bind_ok, hy, Res.bind_eq, Res.bind_ok, wr_lt (by rw [List.length_set]; omega), Res.bind_eq, Res.bind_ok, e]
    · rw [p1 k (by omega), List.getElem?_set_ne (by omega), List.getElem?_set_ne (by omega)]
    · match k, hk with
      | 0, hk =>
        obtain rfl : c = l := by simpa using hk
        have b1 : a'[2 * (f + 0)]? = some (some x) := by
          rw [Nat.add_zero, p1 _ (by omega), List.getElem?_set_ne (by omega), List.getElem?_set_self (by omega)]
        have b2 : a'[2 * (f + 0) + 1]? = some (some y) := by
          show a'[2 * f + 1]? = _
          rw [p1 (2 * f + 1) (by omega), List.getElem?_set_self (by rw [List.length_set]; omega)]
        refine ⟨fun z hz => ?_, fun z w hz => ?_⟩
        · obtain ⟨rfl, rfl⟩ := h1 z hz; exact ⟨b1, b2⟩
        · obtain ⟨rfl, rfl⟩ := h2 z w hz; exact ⟨b1, b2⟩
      | k + 1, hk =>
        have := p2 k l (by simpa using hk)
        rwa [show f + 1 + k = f + (k + 1) by omega] at this

variable {R : Type}

/-- C74: the mesh that a C program sees is the mesh. It gets the convex hull as well if there is one. -/
theorem C74_export (dbg : Bool) {dim : Nat} (t : Tess R) (old : CTess R) (h : Whole dim t) :
    ∃ c, exportTo dbg dim t old = .ok c ∧ Describes dim c t ∧ (¬ (t.convexHull.facets = [] ∧ t.convexHull.holes = []) → c.convexHull = some t.convexHull) := by
  have hn : dim * (t.nodes.length / dim) = t.nodes.length := Nat.mul_div_cancel' h.nodes
  obtain ⟨a1, e1, _, h1⟩ := copy_holds (l := t.nodes) (n := dim * (t.nodes.length / dim)) (by omega)
  obtain ⟨o2, d2, e2, h2⟩ := crs_ok (rows := t.cells) (n := t.cells.length) (le_refl _)
  obtain ⟨o3, d3, e3, h3⟩ := crs_ok (rows := t.faces) (n := t.faces.length) (le_refl _)
  obtain ⟨a4, e4, _, h4⟩ := copy_holds (l := t.boundaryNodes) (n := t.boundaryNodes.length) (le_refl _)
  obtain ⟨a5, e5, _, h5⟩ := copy_holds (l := t.boundaryFaces) (n := t.boundaryFaces.length) (le_refl _)
  obtain ⟨a6, e6, _, h6⟩ := faceCells_ok (cs := t.faceCells) (a := malloc (2 * t.faces.length)) (f := 0) h.sizes (by rw [malloc_len, h.faceCells]; omega)
  obtain ⟨a7, e7, _, h7⟩ := copy_holds (l := t.neighborDomains) (n := t.neighborDomains.length) (le_refl _)
  obtain ⟨o8, d8, e8, h8⟩ := crs_ok (rows := t.sharedNodes) (n := t.neighborDomains.length) (le_of_eq h.sharedNodes)
  obtain ⟨o9, d9, e9, h9⟩ := crs_ok (rows := t.sharedFaces) (n := t.neighborDomains.length) (le_of_eq h.sharedFaces)
  refine ⟨_, by
    unfold exportTo
    simp only [e1, e2, e3, e4, e5, e6, e7, e8, e9, Res.bind_eq, Res.bind_ok, Res.assert_true dbg h.faceCells.symm]
    rfl, ⟨hn, h1, rfl, h2, rfl, h3, rfl, h4, rfl, h5, fun f l hl => ?_, rfl, h7, h8, h9⟩, fun hh => if_neg hh⟩
  have := h6 f l hl
  rwa [Nat.zero_add] at this

/-- The cells of a face as they come back. -/
def comesBack : List Int → List Int
  | [x, y] => if y = -1 then [x] else [x, y]
  | l => l

/-- C74: and back. A mesh that a C object describes is read from it, except for the convex hull and for a second cell `~0`, which is -1. -/
theorem C74_import_partial {dim : Nat} {t : Tess R} {c : CTess R} (h : Whole dim t) (hd : Describes dim c t) (t0 : Tess R) :
    importFrom dim c t0 = .ok { t with convexHull := t0.convexHull, faceCells := t.faceCells.map comesBack } := by
  unfold importFrom
  rw [hd.numNodes, copyFrom_ok hd.nodes, hd.numCells, uncrs_ok hd.cells, hd.numFaces, uncrs_ok hd.faces, hd.numBoundaryNodes, copyFrom_ok hd.boundaryNodes, hd.numBoundaryFaces, copyFrom_ok hd.boundaryFaces,
    hd.numNeighborDomains, copyFrom_ok hd.neighborDomains, ← h.sharedNodes, uncrs_ok hd.sharedNodes, h.sharedNodes, ← h.sharedFaces, uncrs_ok hd.sharedFaces, ← h.faceCells,
    show t.faceCells.length = (t.faceCells.map comesBack).length by rw [List.length_map],
    mapM_range0 (l := t.faceCells.map comesBack) (f := faceCellsRow c.faceCells) (fun i l hl => by
      rw [List.getElem?_map, Option.map_eq_some_iff] at hl
      obtain ⟨l, hl, rfl⟩ := hl
      obtain ⟨p1, p2⟩ := hd.faceCells i l hl
      unfold faceCellsRow
      rcases h.sizes l (List.mem_of_getElem? hl) with hs | hs
      · match l, hs with
        | [x], _ =>
          obtain ⟨q1, q2⟩ := p1 x rfl
          rw [get_eq q2, Res.bind_eq, Res.bind_ok, if_neg (by simp)]
          show ([0] : List Nat).mapM _ = _
          rw [List.mapM_cons, Nat.add_zero, get_eq q1]; rfl
      · match l, hs with
        | [x, y], _ =>
          obtain ⟨q1, q2⟩ := p2 x y rfl
          rw [get_eq q2, Res.bind_eq, Res.bind_ok]
          show _ = Res.ok (if y = -1 then [x] else [x, y])
          by_cases hy : y = -1
          · rw [if_neg (by simpa using hy), if_pos hy]
            show ([0] : List Nat).mapM _ = _
            rw [List.mapM_cons, Nat.add_zero, get_eq q1]; rfl
          · rw [if_pos hy, if_neg hy]
            show ([0, 1] : List Nat).mapM _ = _
            rw [List.mapM_cons, Nat.add_zero, get_eq q1, Res.bind_eq, Res.bind_ok, List.mapM_cons, get_eq q2]; rfl)]
  rfl

/-- C74: there and back, if no face has the second cell `~0`. -/
theorem C74_roundtrip_partial (dbg : Bool) {dim : Nat} (t : Tess R) (old : CTess R) (h : Whole dim t) (h0 : ∀ x, [x, -1] ∉ t.faceCells) (t0 : Tess R) :
    ((exportTo dbg dim t old).bind fun c => importFrom dim c t0) = .ok { t with convexHull := t0.convexHull } := by
  obtain ⟨c, e, hd, _⟩ := C74_export dbg t old h
  rw [e, Res.bind_ok, C74_import_partial h hd, show t.faceCells.map comesBack = t.faceCells by
    conv_rhs => rw [← List.map_id t.faceCells]
    refine List.map_congr_left fun l hl => ?_
    rcases h.sizes l hl with hs | hs
    · match l, hs with
      | [x], _ => rfl
    · match l, hs, hl with
      | [x, y], _, hl => exact if_neg fun hy => h0 x (by rw [← hy]; exact hl)]

/-- C74 fails for a face with the second cell `~0`: it comes back as a face with one cell. -/
theorem C74_lost_fails (dbg : Bool) {dim : Nat} (t : Tess R) (old : CTess R) (h : Whole dim t) {f : Nat} {x : Int} (hf : t.faceCells[f]? = some [x, -1]) (t0 : Tess R) :
    ∃ t', ((exportTo dbg dim t old).bind fun c => importFrom dim c t0) = .ok t' ∧ t'.faceCells[f]? = some [x] := by
  obtain ⟨c, e, hd, _⟩ := C74_export dbg t old h
  refine ⟨_, by rw [e, Res.bind_ok, C74_import_partial h hd], ?_⟩
  show (t.faceCells.map comesBack)[f]? = _
  rw [List.getElem?_map, hf]; rfl

/-- C74 fails for the convex hull: it does not come back, and an object that held a mesh with a convex hull keeps it when it gets a mesh without one. -/
theorem C74_hull_fails (dbg : Bool) {dim : Nat} (t : Tess R) (old : CTess R) (h : Whole dim t) :
    (∃ t', ((exportTo dbg dim t old).bind fun c => importFrom dim c {}) = .ok t' ∧ t'.convexHull = {}) ∧
    (t.convexHull = {} → ∃ c, exportTo dbg dim t old = .ok c ∧ c.convexHull = old.convexHull) := by
  obtain ⟨c, e, hd, _⟩ := C74_export dbg t old h
  refine ⟨⟨_, by rw [e, Res.bind_ok, C74_import_partial h hd], rfl⟩, fun ht => ⟨c, e, ?_⟩⟩
  unfold exportTo at e
  simp only [Res.bind_eq] at e
  iterate 10 (obtain ⟨_, _, e⟩ := Res.bind_eq_ok.1 e)
  simp only [Res.pure_eq, Res.ok.injEq] at e
  rw [← e, ht]; simp

theorem crsLoop_over {α : Type} : ∀ {rows : List (List α)} {offs : Arr Int} {data : Arr α} {i offset : Nat} {x}, offs.length ≤ i + rows.length → crsLoop offs data i offset rows ≠ .ok x
  | [], offs, data, i, offset, x, h, e => by
    unfold crsLoop at e
    rw [wr_ge (by simpa using h)] at e
    cases e
  | r :: rs, offs, data, i, offset, x, h, e => by
    unfold crsLoop at e
    obtain ⟨o, h1, e⟩ := Res.bind_eq_ok.1 e
    obtain ⟨d, h2, e⟩ := Res.bind_eq_ok.1 e
    refine crsLoop_over (rows := rs) ?_ e
    obtain ⟨_, rfl⟩ := wr_eq_ok.1 h1
    rw [List.length_set]; simp only [List.length_cons] at h; omega

/-- C74 fails for a mesh whose shared nodes do not match its neighbours: with more lists than neighbours it is written beyond the end of a block, and with fewer the C object is not a mesh, and cannot be read. -/
theorem C74_shared_fails (dbg : Bool) {dim : Nat} (t : Tess R) (old : CTess R) (t0 : Tess R) (hl : t.neighborDomains.length ≠ t.sharedNodes.length) (t' : Tess R) :
    ((exportTo dbg dim t old).bind fun c => importFrom dim c t0) ≠ .ok t' := by
  intro h
  obtain ⟨c, e, h⟩ := Res.bind_eq_ok.1 h
  unfold exportTo at e
  simp only [Res.bind_eq] at e
  iterate 8 (obtain ⟨_, _, e⟩ := Res.bind_eq_ok.1 e)
  obtain ⟨sn, hs, e⟩ := Res.bind_eq_ok.1 e
  obtain ⟨sf, hf, e⟩ := Res.bind_eq_ok.1 e
  simp only [Res.pure_eq, Res.ok.injEq] at e
  rcases lt_or_gt_of_ne hl with hlt | hgt
  · exact crsLoop_over (by rw [malloc_len]; omega) hs
  · obtain ⟨o, d, e1, _, _, _, q, _⟩ := crsLoop_ok (rows := t.sharedNodes) (offs := malloc (t.neighborDomains.length + 1)) (data := malloc (t.sharedNodes.flatten.length + 1)) (i := 0) (offset := 0) (by rw [malloc_len]; omega) (by rw [malloc_len]; omega)
    unfold importFrom at h
    simp only [Res.bind_eq] at h
    iterate 7 (obtain ⟨_, _, h⟩ := Res.bind_eq_ok.1 h)
    obtain ⟨rows, hr, h⟩ := Res.bind_eq_ok.1 h
    obtain ⟨r, _, hr⟩ := (mapM_parts hr).2 t.sharedNodes.length (by rw [← e, List.mem_range]; exact hgt)
    unfold uncrsRow at hr
    obtain ⟨a, _, hr⟩ := Res.bind_eq_ok.1 hr
    obtain ⟨b, hb, hr⟩ := Res.bind_eq_ok.1 hr
    have he : c.sharedNodeOffsets = o := by
      rw [← e]
      show sn.1 = o
      have : Res.ok sn = Res.ok (o, d) := hs.symm.trans e1
      rw [Res.ok.inj this]
    rw [he] at hb
    unfold get at hb
    rw [q _ (by omega)] at hb
    unfold malloc at hb
    rw [List.getElem?_replicate_of_lt (by omega)] at hb
    cases hb

/-- Two triangles in the unit square, on two processes. -/
def twoTri : Tess Int := { nodes := [0, 0, 1, 0, 1, 1, 0, 1], cells := [[0, 1, 2], [-3, 3, 4]], faces := [[0, 1], [1, 2], [2, 0], [2, 3], [3, 0]], boundaryNodes := [0, 1, 2, 3], boundaryFaces := [0, 1, 3, 4], faceCells := [[0], [0], [0, -2], [1], [1]], convexHull := { facets := [[0, 1], [1, 2], [2, 3], [3, 0]] }, neighborDomains := [1], sharedNodes := [[1, 2]], sharedFaces := [[1]] }

theorem twoTri_whole : Whole 2 twoTri := ⟨by decide, rfl, by decide, rfl, rfl⟩

example (dbg : Bool) (old : CTess Int) : ((exportTo dbg 2 twoTri old).bind fun c => importFrom 2 c {}) = .ok { twoTri with convexHull := {} } :=
  C74_roundtrip_partial dbg twoTri old twoTri_whole (by intro x; simp [twoTri]) {}

/-- Its arrays of cells. -/
example : ((exportTo true 2 twoTri { dimension := 2 }).bind fun c => .ok (c.cellOffsets, c.cellFaces, c.faceCells)) =
    .ok ([some 0, some 3, some 6], [some 0, some 1, some 2, some (-3), some 3, some 4, none], [some 0, some (-1), some 0, some (-1), some 0, some (-2), some 1, some (-1), some 1, some (-1)]) := by decide +kernel

/-- The same mesh with the cells of the common face the other way round: the face comes back as a face of the boundary. -/
example (dbg : Bool) (old : CTess Int) : ∃ t', ((exportTo dbg 2 { twoTri with faceCells := [[0], [0], [1, -1], [1], [1]] } old).bind fun c => importFrom 2 c {}) = .ok t' ∧ t'.faceCells[2]? = some [1] :=
  C74_lost_fails dbg _ old ⟨by decide, rfl, by decide, rfl, rfl⟩ (f := 2) rfl {}

/-- The shared nodes of two neighbours for one. -/
example (dbg : Bool) (old : CTess Int) (t' : Tess Int) : ((exportTo dbg 2 { twoTri with sharedNodes := [[1, 2], [0]] } old).bind fun c => importFrom 2 c {}) ≠ .ok t' :=
  C74_shared_fails dbg _ old {} (by decide) t'
end Verif.CApi
