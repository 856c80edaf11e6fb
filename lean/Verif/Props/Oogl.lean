import Verif.Spec.Oogl
import Verif.Proofs.Box
import Verif.Props.Neighbors
import Mathlib.Tactic.Linarith
/-
C82: an OFF file gives back the points and facets it was written from.
-/
namespace Verif
namespace Oogl
open Mesh

variable {R : Type}

theorem readVerts_flatten {d : Nat} : ∀ (vs : List (List (Tok R))) (l : List (Tok R)), (∀ v ∈ vs, v.length = d) →
    readVerts d vs.length (vs.flatten ++ l) = some (vs, l)
  | [], _, _ => rfl
  | v :: vs, l, h => by
    have hv := h v (by simp)
    rw [List.length_cons, List.flatten_cons, List.append_assoc, readVerts, if_neg (by simp [hv]), List.take_left' hv, List.drop_left' hv,
      readVerts_flatten vs l fun w hw => h w (by simp [hw])]
    rfl

theorem mapM_int (f : List Int) : (f.map (Tok.int (R := R))).mapM Tok.int? = some f := by
  induction f with
  | nil => rfl
  | cons a f ih => rw [List.map_cons, List.mapM_cons, ih]; rfl

theorem readFaces_flatten : ∀ (fs : List (List Int)) (l : List (Tok R)), readFaces fs.length (fs.flatMap facetToks ++ l) = some (fs, l)
  | [], _ => rfl
  | f :: fs, l => by
    have hl : (f.length : Int).toNat = (f.map (Tok.int (R := R))).length := by simp
    rw [List.length_cons, List.flatMap_cons, facetToks, List.cons_append, List.cons_append, readFaces, List.append_assoc, hl, if_neg (by simp),
      List.take_left, List.drop_left, mapM_int, readFaces_flatten fs l]
    rfl

theorem points_ok {d : Nat} (hd : 0 < d) (coords : List R) :
    ∃ vs, (List.range (coords.length / d)).mapM (pointToks d coords) = .ok vs ∧ HasPoints d coords vs := by
  obtain ⟨vs, e, hl, hr⟩ := Nbr.mapM_exists (g := pointToks d coords)
    (P := fun i v => v.length = d ∧ ∀ c < d, ∃ x, coords[d * i + c]? = some x ∧ v[c]? = some (.real x)) (List.range (coords.length / d)) (by
      intro i hi
      rw [List.mem_range] at hi
      obtain ⟨v, e, hl, hr⟩ := Nbr.mapM_exists (g := fun c => (do let x ← rd coords (d * i + c); pure (Tok.real x) : Res (Tok R)))
        (P := fun c t => ∃ x, coords[d * i + c]? = some x ∧ t = .real x) (List.range d) (by
          intro c hc
          rw [List.mem_range] at hc
          have h1 : (i + 1) * d ≤ coords.length := (Nat.mul_le_mul_right _ hi).trans (Nat.div_mul_le_self _ _)
          have h2 : d * i + c < coords.length := by nlinarith
          exact ⟨.real coords[d * i + c], by rw [rd_lt h2]; rfl, _, List.getElem?_eq_getElem h2, rfl⟩)
      rw [List.length_range] at hl
      refine ⟨v, e, hl, fun c hc => ?_⟩
      have hc' : c < v.length := by omega
      obtain ⟨x, h1, h2⟩ := hr c c v[c] (by rw [List.getElem?_range hc]) (by simp)
      exact ⟨x, h1, by rw [List.getElem?_eq_getElem hc', h2]⟩)
  rw [List.length_range] at hl
  refine ⟨vs, e, hl, fun i hi => ?_⟩
  have hi' : i < vs.length := by omega
  exact ⟨vs[i], by simp, hr i i vs[i] (by rw [List.getElem?_range hi]) (by simp)⟩

theorem hasPoints_length {d : Nat} {coords : List R} {vs : List (List (Tok R))} (h : HasPoints d coords vs) : ∀ v ∈ vs, v.length = d := by
  intro v hv
  obtain ⟨i, hi, rfl⟩ := List.getElem_of_mem hv
  obtain ⟨v, e, hl, -⟩ := h.2 i (h.1 ▸ hi)
  rw [List.getElem?_eq_getElem hi] at e
  rw [Option.some.inj e, hl]

/-- Reading a file made of a correct header, the points and facets. -/
theorem read_text {d np nf : Nat} {ne : Int} {vs : List (List (Tok R))} {fs : List (List Int)} {l : List (Tok R)} (hv : ∀ v ∈ vs, v.length = d)
    (hp : vs.length = np) (hf : fs.length = nf) :
    readOFF d (.word "OFF" :: .int np :: .int nf :: .int ne :: (vs.flatten ++ fs.flatMap facetToks ++ l)) = some ⟨vs, fs, l⟩ := by
  rw [readOFF, List.append_assoc, Int.toNat_natCast, Int.toNat_natCast, ← hp, ← hf, readVerts_flatten vs _ hv, Option.bind_some, readFaces_flatten]
  rfl

/-- C82 (3D). For every PLC and every list of points the writer succeeds and a reader of the file gets exactly the points and the facets of the outer
boundary. Missing: the facets of the holes, which are left over (`C82_holes_fails`). -/
theorem C82_3d_partial (dbg : Bool) (plc : PLC) {coords : List R} (h : 3 ∣ coords.length) :
    ∃ t o, writeOFF3 dbg plc coords = .ok t ∧ readOFF 3 t = some o ∧ HasPoints 3 coords o.verts ∧ o.faces = plc.facets ∧ (plc.holes.flatten = [] → o.rest = []) := by
  obtain ⟨vs, e, hv⟩ := points_ok (d := 3) (by omega) coords
  refine ⟨_, ⟨vs, plc.facets, (holeFacets plc).flatMap facetToks⟩, ?_, read_text (ne := 0) (hasPoints_length hv) hv.1 rfl, hv, rfl, ?_⟩
  · rw [writeOFF3, Res.assert_true dbg (Nat.mod_eq_zero_of_dvd h), Res.ok_bind]
    simp only []
    rw [e, Res.ok_bind]
    rfl
  · intro hh
    simp only [holeFacets, hh]
    rfl

theorem mapM_facets (dbg : Bool) : ∀ {fs : List (List Int)}, (∀ f ∈ fs, f.length = 2) →
    ∃ ts, fs.mapM (facetToks2 (R := R) dbg) = .ok ts ∧ ts.flatten = fs.flatMap facetToks := by
  intro fs h
  refine ⟨fs.map facetToks, Geom.mapM_ok (f := facetToks) fs fun f hf => ?_, rfl⟩
  rw [facetToks2, Res.assert_true dbg (h f hf), Res.ok_bind]
  rfl

/-- The edge of a facet of two nodes, without direction. -/
def edgeOf (f : List Int) : Sym2 Int := s(f.getD 0 0, f.getD 1 0)

/-- The smaller and the larger end. -/
def lowHigh : Sym2 Int → Int × Int := Sym2.lift ⟨fun a b => if a < b then (a, b) else (b, a), fun a b => by
  rcases lt_trichotomy a b with h | h | h
  · simp [h, not_lt.2 h.le]
  · simp [h]
  · simp [h, not_lt.2 h.le]⟩

theorem lowHigh_injective : Function.Injective lowHigh := by
  intro x y
  induction x using Sym2.ind with
  | _ a b =>
    induction y using Sym2.ind with
    | _ c d =>
      intro h
      simp only [lowHigh, Sym2.lift_mk] at h
      rw [Sym2.eq_iff]
      split at h <;> split at h <;> simp only [Prod.mk.injEq] at h <;> omega

theorem mapM_edges (dbg : Bool) {fs : List (List Int)} (h : ∀ f ∈ fs, ∃ a b, a ≠ b ∧ f = [a, b]) :
    fs.mapM (edge2 dbg) = .ok ((fs.map edgeOf).map lowHigh) := by
  rw [List.map_map]
  refine Geom.mapM_ok (f := lowHigh ∘ edgeOf) fs fun f hf => ?_
  obtain ⟨a, b, hab, rfl⟩ := h f hf
  rw [edge2, Res.assert_true dbg (by rfl), Res.ok_bind]
  show Internal.hashEdge dbg a b = _
  rw [Internal.hashEdge, Res.assert_true dbg hab, Res.ok_bind]
  rfl

/-- C82 (2D). For every PLC of segments and every list of points the writer succeeds; the third number of the header is the number of different edges, and a
reader that expects two coordinates per vertex gets exactly the points and the facets of the outer boundary. Missing: a reader of OFF files expects three
coordinates (`C82_2d_fails`), and the facets of the holes are left over (`C82_holes_fails`). -/
theorem C82_2d_partial (dbg : Bool) {plc : PLC} {coords : List R} (h : 2 ∣ coords.length) (hf : ∀ f ∈ plc.facets ++ plc.holes.flatten, ∃ a b, a ≠ b ∧ f = [a, b]) :
    ∃ t o, writeOFF2 dbg plc coords = .ok t ∧ t[3]? = some (.int (((plc.facets ++ plc.holes.flatten).map edgeOf).dedup.length : Int)) ∧ readOFF 2 t = some o ∧
      HasPoints 2 coords o.verts ∧ o.faces = plc.facets ∧ (plc.holes.flatten = [] → o.rest = []) := by
  obtain ⟨vs, e, hv⟩ := points_ok (d := 2) (by omega) coords
  have h1 : ∀ f ∈ plc.facets, ∃ a b, a ≠ b ∧ f = [a, b] := fun f hm => hf f (List.mem_append_left _ hm)
  have h2 : ∀ f ∈ holeFacets plc, ∃ a b, a ≠ b ∧ f = [a, b] := fun f hm => hf f (List.mem_append_right _ hm)
  have hl : ∀ {fs : List (List Int)}, (∀ f ∈ fs, ∃ a b, a ≠ b ∧ f = [a, b]) → ∀ f ∈ fs, f.length = 2 := fun h f hm => by
    obtain ⟨a, b, -, rfl⟩ := h f hm
    rfl
  obtain ⟨t1, e1, f1⟩ := mapM_facets (R := R) dbg (hl h1)
  obtain ⟨t2, e2, f2⟩ := mapM_facets (R := R) dbg (hl h2)
  refine ⟨_, ⟨vs, plc.facets, (holeFacets plc).flatMap facetToks⟩, ?_, ?_, read_text (ne := (((plc.facets ++ plc.holes.flatten).map edgeOf).dedup.length : Int))
    (hasPoints_length hv) hv.1 rfl, hv, rfl, ?_⟩
  · rw [writeOFF2, Res.assert_true dbg (Nat.mod_eq_zero_of_dvd h), Res.ok_bind, mapM_edges dbg h1, Res.ok_bind, mapM_edges dbg h2, Res.ok_bind, e, Res.ok_bind,
      e1, Res.ok_bind, e2, Res.ok_bind, f1, f2, ← List.map_append, ← List.map_append, List.dedup_map_of_injective lowHigh_injective, List.length_map]
    rfl
  · rfl
  · intro hh
    simp only [holeFacets, hh]
    rfl

/-! ### What goes wrong -/

theorem readVerts_count {d : Nat} : ∀ {n : Nat} {l : List (Tok R)} {r}, readVerts d n l = some r → l.length = d * n + r.2.length ∧ r.1.length = n
  | 0, l, r, h => by cases h; simp
  | n + 1, l, r, h => by
    rw [readVerts] at h
    split at h
    · cases h
    · next hlt =>
      rcases hr : readVerts d n (l.drop d) with _ | q
      · rw [hr] at h; cases h
      · rw [hr] at h
        cases h
        obtain ⟨h1, h2⟩ := readVerts_count hr
        rw [List.length_drop] at h1
        refine ⟨?_, by simp [h2]⟩
        simp only [Nat.mul_succ]
        omega

theorem readFaces_count : ∀ {n : Nat} {l : List (Tok R)} {r}, readFaces n l = some r → l.length = (r.1.map fun f => f.length + 1).sum + r.2.length
  | 0, l, r, h => by cases h; simp
  | n + 1, [], r, h => by cases h
  | n + 1, .word _ :: l, r, h => by cases h
  | n + 1, .real _ :: l, r, h => by cases h
  | n + 1, .int k :: l, r, h => by
    rw [readFaces] at h
    split at h
    · cases h
    · next hlt =>
      obtain ⟨f, hf, h⟩ := Option.bind_eq_some_iff.1 h
      obtain ⟨q, hq, rfl⟩ := Option.map_eq_some_iff.1 h
      have h1 := readFaces_count hq
      rw [List.length_drop] at h1
      have hfl : f.length = k.toNat := by
        have gen : ∀ (a : List (Tok R)) (b : List Int), a.mapM Tok.int? = some b → b.length = a.length := by
          intro a
          induction a with
          | nil => intro b hb; cases hb; rfl
          | cons x a ih =>
            intro b hb
            rw [List.mapM_cons] at hb
            obtain ⟨y, -, hb⟩ := Option.bind_eq_some_iff.1 hb
            obtain ⟨ys, h2, hb⟩ := Option.bind_eq_some_iff.1 hb
            cases hb
            simp [ih ys h2]
        rw [gen _ _ hf, List.length_take]
        omega
      simp only [List.length_cons, List.map_cons, List.sum_cons, hfl]
      omega

theorem facets_count : ∀ fs : List (List Int), (fs.flatMap (facetToks (R := R))).length = (fs.map fun f => f.length + 1).sum
  | [] => rfl
  | f :: fs => by
    rw [List.flatMap_cons, List.length_append, facets_count fs]
    simp [facetToks]

/-- No reader of OFF files gets the facets from a 2D file with a point in it and reads it to its end: the file has two coordinates per vertex, the format three. -/
theorem C82_2d_fails (dbg : Bool) {plc : PLC} {coords : List R} (hp : 2 ≤ coords.length) (hh : plc.holes.flatten = []) {t : List (Tok R)}
    (ht : writeOFF2 dbg plc coords = .ok t) (o : Off R) (ho : readOFF 3 t = some o) : ¬ (o.faces = plc.facets ∧ o.rest = []) := by
  rintro ⟨h1, h2⟩
  obtain ⟨vs, e, hv⟩ := points_ok (d := 2) (by omega) coords
  rw [writeOFF2] at ht
  obtain ⟨-, -, ht⟩ := Res.bind_eq_ok.1 ht
  obtain ⟨es, -, ht⟩ := Res.bind_eq_ok.1 ht
  obtain ⟨hs, -, ht⟩ := Res.bind_eq_ok.1 ht
  obtain ⟨pts, ep, ht⟩ := Res.bind_eq_ok.1 ht
  obtain ⟨fs, ef, ht⟩ := Res.bind_eq_ok.1 ht
  obtain ⟨gs, eg, ht⟩ := Res.bind_eq_ok.1 ht
  cases ht
  rw [e] at ep
  cases ep
  have hgs : gs = [] := by
    rw [holeFacets, hh, List.mapM_nil] at eg
    cases eg
    rfl
  have hfs : fs.flatten.length = (plc.facets.map fun f => f.length + 1).sum := by
    have gen : ∀ (a : List (List Int)) b, a.mapM (facetToks2 (R := R) dbg) = .ok b → b.flatten.length = (a.map fun f => f.length + 1).sum := by
      intro a
      induction a with
      | nil => intro b hb; cases hb; rfl
      | cons x a ih =>
        intro b hb
        rw [List.mapM_cons] at hb
        obtain ⟨y, hy, hb⟩ := Res.bind_eq_ok.1 hb
        obtain ⟨ys, h3, hb⟩ := Res.bind_eq_ok.1 hb
        cases hb
        rw [facetToks2] at hy
        obtain ⟨-, -, hy⟩ := Res.bind_eq_ok.1 hy
        cases hy
        rw [List.flatten_cons, List.length_append, ih ys h3]
        simp [facetToks]
    exact gen _ _ ef
  have hvl : vs.flatten.length = 2 * vs.length := by
    rw [List.length_flatten, List.map_congr_left (g := fun _ => 2) fun v hm => hasPoints_length hv v hm, List.map_const', List.sum_replicate_nat]
    ring
  rw [readOFF] at ho
  obtain ⟨v, h3, ho⟩ := Option.bind_eq_some_iff.1 ho
  obtain ⟨f, h4, rfl⟩ := Option.map_eq_some_iff.1 ho
  have c1 := readVerts_count h3
  have c2 := readFaces_count h4
  simp only at h1 h2
  rw [h1, h2] at c2
  rw [hgs] at c1
  simp only [List.length_append, List.flatten_nil, List.length_nil, Int.toNat_natCast] at c1 c2
  have := hv.1
  omega

/-- The facets of holes are written but not counted: a reader leaves them unread, in both dimensions, whenever there are any. -/
theorem C82_holes_fails (dbg : Bool) {plc : PLC} {coords : List R} (hh : plc.holes.flatten ≠ []) :
    (3 ∣ coords.length → ∃ t o, writeOFF3 dbg plc coords = .ok t ∧ readOFF 3 t = some o ∧ o.faces = plc.facets ∧ o.rest ≠ []) ∧
    (2 ∣ coords.length → (∀ f ∈ plc.facets ++ plc.holes.flatten, ∃ a b, a ≠ b ∧ f = [a, b]) →
      ∃ t o, writeOFF2 dbg plc coords = .ok t ∧ readOFF 2 t = some o ∧ o.faces = plc.facets ∧ o.rest ≠ []) := by
  have hne : (holeFacets plc).flatMap (facetToks (R := R)) ≠ [] := by
    intro h
    obtain ⟨f, fs, hf⟩ := List.exists_cons_of_ne_nil hh
    rw [holeFacets, hf, List.flatMap_cons, facetToks] at h
    simp at h
  constructor
  · intro h
    obtain ⟨vs, e, hv⟩ := points_ok (d := 3) (by omega) coords
    refine ⟨_, ⟨vs, plc.facets, (holeFacets plc).flatMap facetToks⟩, ?_, read_text (ne := 0) (hasPoints_length hv) hv.1 rfl, rfl, hne⟩
    rw [writeOFF3, Res.assert_true dbg (Nat.mod_eq_zero_of_dvd h), Res.ok_bind]
    simp only []
    rw [e, Res.ok_bind]
    rfl
  · intro h hf
    obtain ⟨vs, e, hv⟩ := points_ok (d := 2) (by omega) coords
    have h1 : ∀ f ∈ plc.facets, ∃ a b, a ≠ b ∧ f = [a, b] := fun f hm => hf f (List.mem_append_left _ hm)
    have h2 : ∀ f ∈ holeFacets plc, ∃ a b, a ≠ b ∧ f = [a, b] := fun f hm => hf f (List.mem_append_right _ hm)
    have hl : ∀ {fs : List (List Int)}, (∀ f ∈ fs, ∃ a b, a ≠ b ∧ f = [a, b]) → ∀ f ∈ fs, f.length = 2 := fun h f hm => by
      obtain ⟨a, b, -, rfl⟩ := h f hm
      rfl
    obtain ⟨t1, e1, f1⟩ := mapM_facets (R := R) dbg (hl h1)
    obtain ⟨t2, e2, f2⟩ := mapM_facets (R := R) dbg (hl h2)
    refine ⟨_, ⟨vs, plc.facets, (holeFacets plc).flatMap facetToks⟩, ?_,
      read_text (ne := (((plc.facets ++ holeFacets plc).map edgeOf).map lowHigh).dedup.length) (hasPoints_length hv) hv.1 rfl, rfl, hne⟩
    rw [writeOFF2, Res.assert_true dbg (Nat.mod_eq_zero_of_dvd h), Res.ok_bind, mapM_edges dbg h1, Res.ok_bind, mapM_edges dbg h2, Res.ok_bind, e, Res.ok_bind,
      e1, Res.ok_bind, e2, Res.ok_bind, f1, f2, ← List.map_append, ← List.map_append]
    rfl

/-! ### Examples -/

/-- A square with a triangular hole. -/
def holed : PLC := { facets := [[0, 1], [1, 2], [2, 3], [3, 0]], holes := [[[4, 5], [5, 6], [6, 4]]] }

example : ∀ f ∈ holed.facets ++ holed.holes.flatten, ∃ a b, a ≠ b ∧ f = [a, b] := by
  intro f hf
  simp only [holed, List.flatten_cons, List.flatten_nil, List.append_nil, List.cons_append, List.nil_append, List.mem_cons, List.not_mem_nil, or_false] at hf
  rcases hf with rfl | rfl | rfl | rfl | rfl | rfl | rfl <;> exact ⟨_, _, by decide, rfl⟩

example : (writeOFF2 true holed [0, 0, 9, 0, 9, 9, 0, 9, 3, 3, 6, 3, 3, (6 : Int)]) = .ok
    ([.word "OFF", .int 7, .int 4, .int 7] ++ [0, 0, 9, 0, 9, 9, 0, 9, 3, 3, 6, 3, 3, 6].map .real ++
      [2, 0, 1, 2, 1, 2, 2, 2, 3, 2, 3, 0, 2, 4, 5, 2, 5, 6, 2, 6, 4].map .int) := by decide +kernel

/-- A tetrahedron in space meets the hypotheses of `C82_3d_partial`. -/
example : ∃ t o, writeOFF3 true { facets := [[0, 2, 1], [0, 1, 3], [1, 2, 3], [2, 0, 3]] } [0, 0, 0, 1, 0, 0, 0, 1, 0, 0, 0, (1 : Int)] = .ok t ∧
    readOFF 3 t = some o ∧ o.faces = [[0, 2, 1], [0, 1, 3], [1, 2, 3], [2, 0, 3]] ∧ o.rest = [] := by
  obtain ⟨t, o, h1, h2, -, h3, h4⟩ := C82_3d_partial true { facets := [[0, 2, 1], [0, 1, 3], [1, 2, 3], [2, 0, 3]] }
    (coords := [0, 0, 0, 1, 0, 0, 0, 1, 0, 0, 0, (1 : Int)]) (by decide)
  exact ⟨t, o, h1, h2, h3, h4 rfl⟩

end Oogl
end Verif
