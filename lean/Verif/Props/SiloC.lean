import Verif.Spec.SiloC
import Verif.Props.Silo
import Verif.Props.CApi
/-
C83: the C interface to the Silo writer.
-/
namespace Verif
namespace Silo
open Mesh CApi

section maps
variable {β : Type}

theorem mem_fst_mapSet {k : String} {v : β} : ∀ {m : List (String × β)} {x : String}, x ∈ (mapSet k v m).map Prod.fst ↔ x = k ∨ x ∈ m.map Prod.fst
  | [], x => by simp [mapSet]
  | e :: l, x => by
    rw [mapSet]
    split
    · simp
    · split
      · next h => simp [h]
      · rw [List.map_cons, List.mem_cons, mem_fst_mapSet (m := l), List.map_cons, List.mem_cons]
        tauto

theorem sorted_mapSet {k : String} {v : β} : ∀ {m : List (String × β)}, (m.map Prod.fst).Pairwise (· < ·) → ((mapSet k v m).map Prod.fst).Pairwise (· < ·)
  | [], _ => by simp [mapSet]
  | e :: l, h => by
    rw [List.map_cons, List.pairwise_cons] at h
    rw [mapSet]
    split
    · next hk =>
      rw [List.map_cons, List.pairwise_cons, List.map_cons, List.pairwise_cons]
      refine ⟨fun x hx => ?_, h⟩
      rcases List.mem_cons.1 hx with rfl | hx
      · exact hk
      · exact hk.trans (h.1 x hx)
    · split
      · next hk =>
        rw [List.map_cons, List.pairwise_cons]
        exact ⟨fun x hx => hk ▸ h.1 x hx, h.2⟩
      · next h1 h2 =>
        rw [List.map_cons, List.pairwise_cons]
        refine ⟨fun x hx => ?_, sorted_mapSet h.2⟩
        rcases mem_fst_mapSet.1 hx with rfl | hx
        · exact lt_of_le_of_ne (not_lt.1 h1) (Ne.symm h2)
        · exact h.1 x hx

theorem mem_mapSet {k : String} {v : β} {x : String} {y : β} : ∀ {m : List (String × β)}, (m.map Prod.fst).Pairwise (· < ·) →
    ((x, y) ∈ mapSet k v m ↔ (x = k ∧ y = v) ∨ (x ≠ k ∧ (x, y) ∈ m))
  | [], _ => by
    simp [mapSet]
  | e :: l, h => by
    rw [List.map_cons, List.pairwise_cons] at h
    have hl : ∀ {a b}, (a, b) ∈ l → e.1 < a := fun {a b} hab => h.1 a (List.mem_map.2 ⟨_, hab, rfl⟩)
    obtain ⟨e1, e2⟩ := e
    simp only at hl h
    rw [mapSet]
    split
    · next hk =>
      simp only at hk
      simp only [List.mem_cons, Prod.mk.injEq]
      constructor
      · rintro (⟨rfl, rfl⟩ | ⟨rfl, rfl⟩ | hm)
        · exact .inl ⟨rfl, rfl⟩
        · exact .inr ⟨hk.ne', .inl ⟨rfl, rfl⟩⟩
        · exact .inr ⟨(hk.trans (hl hm)).ne', .inr hm⟩
      · tauto
    · split
      · next hk =>
        simp only at hk
        subst hk
        simp only [List.mem_cons, Prod.mk.injEq]
        constructor
        · rintro (⟨rfl, rfl⟩ | hm)
          · exact .inl ⟨rfl, rfl⟩
          · exact .inr ⟨(hl hm).ne', .inr hm⟩
        · tauto
      · next h1 h2 =>
        simp only at h1 h2
        rw [List.mem_cons, mem_mapSet h.2, List.mem_cons]
        simp only [Prod.mk.injEq]
        constructor
        · rintro (⟨rfl, rfl⟩ | hm | hm)
          · exact .inr ⟨fun h => h2 h.symm, .inl ⟨rfl, rfl⟩⟩
          · exact .inl hm
          · exact .inr ⟨hm.1, .inr hm.2⟩
        · tauto

/-- Filling a map keeps, for each name, what is given last. -/
theorem mapOf_last (ps : List (String × β)) : LastOf ps (mapOf ps) := by
  induction ps using List.reverseRecOn with
  | nil => exact ⟨by simp [mapOf], by simp [mapOf]⟩
  | append_singleton ps p ih =>
    have e : mapOf (ps ++ [p]) = mapSet p.1 p.2 (mapOf ps) := by rw [mapOf, List.foldl_append]; rfl
    refine ⟨e ▸ sorted_mapSet ih.sorted, fun k v => ?_⟩
    rw [e, mem_mapSet ih.sorted, ih.mem]
    have hlast : (ps ++ [p])[ps.length]? = some p := by simp
    constructor
    · rintro (⟨rfl, rfl⟩ | ⟨hk, i, hi, hj⟩)
      · refine ⟨ps.length, hlast, fun j hj v' => ?_⟩
        rw [List.getElem?_eq_none (by simp; omega)]
        simp
      · have hil := (List.getElem?_eq_some_iff.1 hi).1
        refine ⟨i, by rw [List.getElem?_append_left hil, hi], fun j hji v' hv => ?_⟩
        rcases Nat.lt_or_ge j ps.length with h | h
        · rw [List.getElem?_append_left h] at hv
          exact hj j hji v' hv
        · rw [List.getElem?_append_right h, List.getElem?_singleton] at hv
          split at hv
          · cases hv; exact hk rfl
          · cases hv
    · rintro ⟨i, hi, hj⟩
      by_cases hk : k = p.1
      · left
        refine ⟨hk, ?_⟩
        have : ¬ ps.length > i := fun h => hj _ h p.2 (by rw [hlast, hk])
        have hil := (List.getElem?_eq_some_iff.1 hi).1
        simp only [List.length_append, List.length_singleton] at hil
        obtain rfl : i = ps.length := by omega
        rw [hlast] at hi
        cases hi
        rfl
      · right
        refine ⟨hk, ?_⟩
        have hne : i ≠ ps.length := by
          rintro rfl
          rw [hlast] at hi
          cases hi
          exact hk rfl
        have hil := (List.getElem?_eq_some_iff.1 hi).1
        simp only [List.length_append, List.length_singleton] at hil
        refine ⟨i, by rwa [List.getElem?_append_left (by omega)] at hi, fun j hji v' hv => ?_⟩
        have hjl := (List.getElem?_eq_some_iff.1 hv).1
        exact hj j hji v' (by rw [List.getElem?_append_left hjl, hv])

theorem LastOf.sub {given m : List (String × β)} (h : LastOf given m) {p : String × β} (hp : p ∈ m) : p ∈ given := by
  obtain ⟨i, hi, -⟩ := (h.mem p.1 p.2).1 hp
  exact List.mem_of_getElem? hi

/-- With different names the map holds just what is given. -/
theorem LastOf.perm {given m : List (String × β)} (h : LastOf given m) (hn : (given.map Prod.fst).Nodup) : m.Perm given := by
  have h1 : m.Nodup := List.Nodup.of_map (f := Prod.fst) (h.sorted.imp fun h => h.ne)
  have h2 : given.Nodup := List.Nodup.of_map (f := Prod.fst) hn
  rw [List.perm_ext_iff_of_nodup h1 h2]
  rintro ⟨k, v⟩
  refine ⟨h.sub, fun hm => ?_⟩
  obtain ⟨i, hi⟩ := List.mem_iff_getElem?.1 hm
  refine (h.mem k v).2 ⟨i, hi, fun j hj v' hv => ?_⟩
  have hii : (given.map Prod.fst)[i]? = some k := by rw [List.getElem?_map, hi]; rfl
  have hjj : (given.map Prod.fst)[j]? = some k := by rw [List.getElem?_map, hv]; rfl
  have hl := (List.getElem?_eq_some_iff.1 hii).1
  have := (List.getElem?_inj hl hn).1 (hii.trans hjj.symm)
  omega

end maps

section tags

/-- The map of tags. -/
theorem tagMap_ok {ts : List CTag} (h : ∀ t ∈ ts, t.size ≤ t.values.length) :
    ∃ m, tagMap ts = .ok m ∧ LastOf (tagsGiven ts) (tagValues m) ∧
      ∀ b, b ∈ leaked ts.length m ↔ ∃ t, ts[b]? = some t ∧ ∃ b' > b, ∃ t', ts[b']? = some t' ∧ t'.name = t.name := by
  have e : ts.mapM (fun t => readN t.size t.values) = .ok (ts.map fun t => t.values.take t.size) :=
    Geom.mapM_ok (f := fun t : CTag => t.values.take t.size) _ fun t ht => by rw [readN, if_pos (h t ht)]
  refine ⟨_, by rw [tagMap, e, Res.ok_bind]; rfl, ?_, ?_⟩ <;>
    generalize hP : (ts.map CTag.name).zip ((List.range ts.length).zip (ts.map fun t => t.values.take t.size)) = P
  all_goals
    have hget : ∀ (i : Nat) k b v, P[i]? = some (k, (b, v)) ↔ b = i ∧ ∃ t, ts[i]? = some t ∧ t.name = k ∧ t.values.take t.size = v := by
      intro i k b v
      rw [← hP, List.getElem?_zip_eq_some, List.getElem?_zip_eq_some, List.getElem?_map, List.getElem?_map, Option.map_eq_some_iff, Option.map_eq_some_iff]
      constructor
      · rintro ⟨⟨t, ht, rfl⟩, hb, t', ht', rfl⟩
        obtain rfl := Option.some.inj (ht.symm.trans ht')
        have hil := (List.getElem?_eq_some_iff.1 ht).1
        rw [List.getElem?_range hil] at hb
        exact ⟨(Option.some.inj hb).symm, t, ht, rfl, rfl⟩
      · rintro ⟨rfl, t, ht, rfl, rfl⟩
        exact ⟨⟨t, ht, rfl⟩, List.getElem?_range (List.getElem?_eq_some_iff.1 ht).1, t, ht, rfl⟩
    have hL := mapOf_last P
  · refine ⟨?_, fun k v => ?_⟩
    · have : (tagValues (mapOf P)).map Prod.fst = (mapOf P).map Prod.fst := by rw [tagValues, List.map_map]; rfl
      rw [this]
      exact hL.sorted
    · have hg : ∀ (i : Nat) k v, (tagsGiven ts)[i]? = some (k, v) ↔ P[i]? = some (k, (i, v)) := by
        intro i k v
        rw [hget, tagsGiven, List.getElem?_map, Option.map_eq_some_iff]
        simp
      constructor
      · intro hm
        rw [tagValues, List.mem_map] at hm
        obtain ⟨⟨k', b, v'⟩, hm, he⟩ := hm
        simp only [Prod.mk.injEq] at he
        obtain ⟨rfl, rfl⟩ := he
        obtain ⟨i, hi, hj⟩ := (hL.mem _ _).1 hm
        obtain ⟨rfl, -⟩ := (hget _ _ _ _).1 hi
        exact ⟨b, (hg _ _ _).2 hi, fun j hji v' hv => hj j hji _ ((hg _ _ _).1 hv)⟩
      · rintro ⟨i, hi, hj⟩
        rw [tagValues, List.mem_map]
        refine ⟨(k, (i, v)), (hL.mem _ _).2 ⟨i, (hg _ _ _).1 hi, fun j hji v' hv => ?_⟩, rfl⟩
        obtain ⟨b, w⟩ := v'
        obtain ⟨rfl, -⟩ := (hget _ _ _ _).1 hv
        exact hj _ hji w ((hg _ _ _).2 hv)
  · intro b
    have hval : b ∈ (mapOf P).map (fun e => e.2.1) ↔ ∃ t, ts[b]? = some t ∧ ∀ b' > b, ∀ t', ts[b']? = some t' → t'.name ≠ t.name := by
      rw [List.mem_map]
      constructor
      · rintro ⟨⟨k, b', v⟩, hm, rfl⟩
        obtain ⟨i, hi, hj⟩ := (hL.mem _ _).1 hm
        obtain ⟨rfl, t, ht, rfl, rfl⟩ := (hget _ _ _ _).1 hi
        exact ⟨t, ht, fun b' hb t' ht' hn => hj b' hb (b', t'.values.take t'.size) ((hget _ _ _ _).2 ⟨rfl, t', ht', hn, rfl⟩)⟩
      · rintro ⟨t, ht, hl⟩
        refine ⟨(t.name, (b, t.values.take t.size)), (hL.mem _ _).2 ⟨b, (hget _ _ _ _).2 ⟨rfl, t, ht, rfl, rfl⟩, fun j hj v' hv => ?_⟩, rfl⟩
        obtain ⟨b', w⟩ := v'
        obtain ⟨rfl, t', ht', hn, -⟩ := (hget _ _ _ _).1 hv
        exact hl _ hj t' ht' hn
    rw [leaked, List.mem_filter, decide_eq_true_eq, hval, List.mem_range]
    constructor
    · rintro ⟨hb, hn⟩
      refine ⟨ts[b], List.getElem?_eq_getElem hb, ?_⟩
      by_contra hcon
      push Not at hcon
      exact hn ⟨ts[b], List.getElem?_eq_getElem hb, hcon⟩
    · rintro ⟨t, ht, b', hb, t', ht', hn⟩
      refine ⟨(List.getElem?_eq_some_iff.1 ht).1, ?_⟩
      rintro ⟨t2, ht2, hl⟩
      obtain rfl := Option.some.inj (ht.symm.trans ht2)
      exact hl b' hb t' ht' hn

end tags

variable {R : Type}

/-- What a call does with its arguments: it writes a file for them and leaks vectors. -/
theorem cWrite_args (dbg : Bool) (c : CTess R) {a : CArgs R} (ha : a.TagsFit) :
    ∃ x leaks, Given a x ∧ Leaks a leaks ∧ cWrite dbg c a = (do
      let file ← (if c.dimension = 2 then do
          let m ← importFrom 2 c {}
          let f ← write2 dbg m x
          pure (AnyFile.two f)
        else do
          Res.assert dbg (c.dimension = 3)
          let m ← importFrom 3 c {}
          let f ← write3 dbg m x
          pure (AnyFile.three f) : Res (AnyFile R))
      pure ⟨file, leaks⟩) := by
  obtain ⟨m1, e1, g1, l1⟩ := tagMap_ok (ha a.nodeTags (by simp [CArgs.tagKinds]))
  obtain ⟨m2, e2, g2, l2⟩ := tagMap_ok (ha a.edgeTags (by simp [CArgs.tagKinds]))
  obtain ⟨m3, e3, g3, l3⟩ := tagMap_ok (ha a.faceTags (by simp [CArgs.tagKinds]))
  obtain ⟨m4, e4, g4, l4⟩ := tagMap_ok (ha a.cellTags (by simp [CArgs.tagKinds]))
  refine ⟨⟨mapOf a.nodeFields, mapOf a.edgeFields, mapOf a.faceFields, mapOf a.cellFields, tagValues m1, tagValues m2, tagValues m3, tagValues m4⟩,
    [leaked a.nodeTags.length m1, leaked a.edgeTags.length m2, leaked a.faceTags.length m3, leaked a.cellTags.length m4],
    ⟨mapOf_last _, mapOf_last _, mapOf_last _, mapOf_last _, g1, g2, g3, g4⟩, ⟨rfl, ?_⟩, ?_⟩
  · intro k ts l hts hl
    match k with
    | 0 => cases hts; cases hl; exact l1
    | 1 => cases hts; cases hl; exact l2
    | 2 => cases hts; cases hl; exact l3
    | 3 => cases hts; cases hl; exact l4
    | k + 4 => cases hts
  · rw [cWrite, e1, Res.ok_bind, e2, Res.ok_bind, e3, Res.ok_bind, e4, Res.ok_bind]

theorem heads {dim : Nat} {t : Tess R} (h : Whole dim t) : (t.faceCells.map comesBack).map List.head? = t.faceCells.map List.head? := by
  rw [List.map_map]
  refine List.map_congr_left fun l hl => ?_
  rcases h.sizes l hl with h | h
  · obtain ⟨x, rfl⟩ := List.length_eq_one_iff.1 h
    rfl
  · obtain ⟨x, y, rfl⟩ := List.length_eq_two.1 h
    simp only [Function.comp, comesBack]
    split <;> rfl

/-- C83 (2D). For every mesh that a C object describes and all fields and tags, the C function writes just the file that the C++ writer writes for that mesh
without its convex hull, and each name stands for the values given last. Vectors are leaked exactly for tags whose name is given again later. Missing: the
convex hull (`C83_hull_fails`), the leak (`C83_leak_fails`). -/
theorem C83_2d_partial (dbg : Bool) {t : Tess R} {c : CTess R} (hdim : c.dimension = 2) (h : Whole 2 t) (hd : Describes 2 c t) {a : CArgs R} (ha : a.TagsFit) :
    ∃ x leaks, Given a x ∧ Leaks a leaks ∧ cWrite dbg c a = (write2 dbg { t with convexHull := {} } x >>= fun f => pure ⟨.two f, leaks⟩) := by
  obtain ⟨x, leaks, hx, hl, e⟩ := cWrite_args dbg c ha
  refine ⟨x, leaks, hx, hl, ?_⟩
  rw [e, if_pos hdim, C74_import_partial h hd, Res.ok_bind]
  have := (C80_facecells_fails dbg { t with convexHull := {} } x (t.faceCells.map comesBack) (heads h)).1
  simp only at this
  rw [this]
  cases write2 dbg { t with convexHull := {} } x <;> rfl

/-- C83 (3D). -/
theorem C83_3d_partial (dbg : Bool) {t : Tess R} {c : CTess R} (hdim : c.dimension = 3) (h : Whole 3 t) (hd : Describes 3 c t) {a : CArgs R} (ha : a.TagsFit) :
    ∃ x leaks, Given a x ∧ Leaks a leaks ∧ cWrite dbg c a = (write3 dbg { t with convexHull := {} } x >>= fun f => pure ⟨.three f, leaks⟩) := by
  obtain ⟨x, leaks, hx, hl, e⟩ := cWrite_args dbg c ha
  refine ⟨x, leaks, hx, hl, ?_⟩
  rw [e, if_neg (by omega), Res.assert_true dbg hdim, Res.ok_bind, C74_import_partial h hd, Res.ok_bind]
  have := (C80_facecells_fails dbg { t with convexHull := {} } x (t.faceCells.map comesBack) (heads h)).2
  simp only at this
  rw [this]
  cases write3 dbg { t with convexHull := {} } x <;> rfl

theorem Given.fit {dim e : Nat} {m : Tess R} {a : CArgs R} {x : Extras R} (hx : Given a x) (h : a.Fit dim e m) : Fit dim e m x :=
  ⟨fun f hf => h.node f (hx.nodeFields.sub hf), fun f hf => h.edge f (hx.edgeFields.sub hf), fun f hf => h.face f (hx.faceFields.sub hf),
    fun f hf => h.cell f (hx.cellFields.sub hf)⟩

/-- Written from C, the file of a mesh of closed cells describes the mesh, in 2D. -/
theorem C83_describes_2d_partial (dbg : Bool) {t : Tess R} {c : CTess R} (hdim : c.dimension = 2) (h : Whole 2 t) (hd : Describes 2 c t) (hp : Polygonal t)
    {a : CArgs R} (ha : a.TagsFit) (hf : a.Fit 2 t.faces.length t) :
    ∃ x leaks f, Given a x ∧ cWrite dbg c a = .ok ⟨.two f, leaks⟩ ∧ Describes2 { t with convexHull := {} } x f := by
  obtain ⟨x, leaks, hx, -, e⟩ := C83_2d_partial dbg hdim h hd ha
  obtain ⟨f, ef, hdf⟩ := C80_2d_partial dbg (m := { t with convexHull := {} }) (x := x)
    ⟨hp.even, hp.face, hp.boundary, hp.nonempty, hp.range, hp.loop, hp.sides, hp.side⟩ (by have := hx.fit hf; exact ⟨this.node, this.edge, this.face, this.cell⟩)
  refine ⟨x, leaks, f, hx, ?_, hdf⟩
  rw [e, ef]
  rfl

/-- The same in 3D. -/
theorem C83_describes_3d_partial (dbg : Bool) {t : Tess R} {c : CTess R} (hdim : c.dimension = 3) (h : Whole 3 t) (hd : Describes 3 c t) (hp : Polyhedral t)
    {a : CArgs R} (ha : a.TagsFit) {e : Nat} (he : t.faces.length ≤ e) (hf : a.Fit 3 e t) :
    ∃ x leaks f, Given a x ∧ cWrite dbg c a = .ok ⟨.three f, leaks⟩ ∧ Describes3 { t with convexHull := {} } x f := by
  obtain ⟨x, leaks, hx, -, e⟩ := C83_3d_partial dbg hdim h hd ha
  obtain ⟨f, ef, hdf⟩ := C80_3d_partial dbg (m := { t with convexHull := {} }) (x := x)
    ⟨hp.triple, hp.boundary, hp.sides, hp.side⟩ he (by have := hx.fit hf; exact ⟨this.node, this.edge, this.face, this.cell⟩)
  refine ⟨x, leaks, f, hx, ?_, hdf⟩
  rw [e, ef]
  rfl

/-- The function without tags writes no tags and leaks nothing. -/
theorem C83_plain (dbg : Bool) {t : Tess R} {c : CTess R} (hdim : c.dimension = 2) (h : Whole 2 t) (hd : Describes 2 c t) (hp : Polygonal t)
    {a : CArgs R} (hf : a.Fit 2 t.faces.length t) :
    ∃ x f, Given { a with nodeTags := [], edgeTags := [], faceTags := [], cellTags := [] } x ∧ cWritePlain dbg c a = .ok ⟨.two f, [[], [], [], []]⟩ ∧
      Describes2 { t with convexHull := {} } x f ∧ f.common.nodeTags = none ∧ f.common.edgeTags = none ∧ f.common.faceTags = none ∧ f.common.cellTags = none := by
  have ha : CArgs.TagsFit { a with nodeTags := [], edgeTags := [], faceTags := [], cellTags := [] } := by
    intro ts hts t ht
    simp only [CArgs.tagKinds, List.mem_cons, List.not_mem_nil, or_false, or_self] at hts
    rw [hts] at ht
    cases ht
  obtain ⟨x, leaks, hx, hl, e⟩ := C83_2d_partial dbg hdim h hd ha
  obtain ⟨f, ef, hdf⟩ := C80_2d_partial dbg (m := { t with convexHull := {} }) (x := x)
    ⟨hp.even, hp.face, hp.boundary, hp.nonempty, hp.range, hp.loop, hp.sides, hp.side⟩
    (by have := hx.fit (dim := 2) (e := t.faces.length) (m := t) ⟨hf.node, hf.edge, hf.face, hf.cell⟩; exact ⟨this.node, this.edge, this.face, this.cell⟩)
  have hnone : ∀ l : List (String × List Int), LastOf (tagsGiven []) l → tagArray l = none := by
    intro l hl
    have : l = [] := List.eq_nil_iff_forall_not_mem.2 fun p hp => by simpa [tagsGiven] using hl.sub hp
    rw [this]
    rfl
  have hleaks : leaks = [[], [], [], []] := by
    obtain ⟨h4, hl⟩ := hl
    match leaks, h4 with
    | [l1, l2, l3, l4], _ =>
      have e1 : l1 = [] := List.eq_nil_iff_forall_not_mem.2 fun b hb => by simpa using (hl 0 [] l1 rfl rfl b).1 hb
      have e2 : l2 = [] := List.eq_nil_iff_forall_not_mem.2 fun b hb => by simpa using (hl 1 [] l2 rfl rfl b).1 hb
      have e3 : l3 = [] := List.eq_nil_iff_forall_not_mem.2 fun b hb => by simpa using (hl 2 [] l3 rfl rfl b).1 hb
      have e4 : l4 = [] := List.eq_nil_iff_forall_not_mem.2 fun b hb => by simpa using (hl 3 [] l4 rfl rfl b).1 hb
      rw [e1, e2, e3, e4]
  refine ⟨x, f, hx, ?_, hdf, ?_⟩
  · rw [cWritePlain, e, ef, hleaks]
    rfl
  · rw [write2] at ef
    obtain ⟨co, -, ef⟩ := Res.bind_eq_ok.1 ef
    obtain ⟨bd, -, ef⟩ := Res.bind_eq_ok.1 ef
    obtain ⟨rs, -, ef⟩ := Res.bind_eq_ok.1 ef
    obtain ⟨cm, ec, ef⟩ := Res.bind_eq_ok.1 ef
    cases ef
    rw [common] at ec
    obtain ⟨cn, -, ec⟩ := Res.bind_eq_ok.1 ec
    obtain ⟨v1, -, ec⟩ := Res.bind_eq_ok.1 ec
    obtain ⟨v2, -, ec⟩ := Res.bind_eq_ok.1 ec
    obtain ⟨v3, -, ec⟩ := Res.bind_eq_ok.1 ec
    obtain ⟨v4, -, ec⟩ := Res.bind_eq_ok.1 ec
    cases ec
    exact ⟨hnone _ hx.nodeTags, hnone _ hx.edgeTags, hnone _ hx.faceTags, hnone _ hx.cellTags⟩

/-! ### What is lost -/

theorem common_hull {rev : Bool} {m : Tess R} {n : Nat} {x : Extras R} {c : Common R} (ec : common rev m n x = .ok c) : c.convexhull = hullArray m := by
  rw [common] at ec
  obtain ⟨cn, -, ec⟩ := Res.bind_eq_ok.1 ec
  obtain ⟨v1, -, ec⟩ := Res.bind_eq_ok.1 ec
  obtain ⟨v2, -, ec⟩ := Res.bind_eq_ok.1 ec
  obtain ⟨v3, -, ec⟩ := Res.bind_eq_ok.1 ec
  obtain ⟨v4, -, ec⟩ := Res.bind_eq_ok.1 ec
  cases ec
  rfl

theorem write2_hull {dbg : Bool} {m : Tess R} {x : Extras R} {f : File2 R} (ef : write2 dbg m x = .ok f) : f.common.convexhull = hullArray m := by
  rw [write2] at ef
  obtain ⟨co, -, ef⟩ := Res.bind_eq_ok.1 ef
  obtain ⟨bd, -, ef⟩ := Res.bind_eq_ok.1 ef
  obtain ⟨rs, -, ef⟩ := Res.bind_eq_ok.1 ef
  obtain ⟨cm, ec, ef⟩ := Res.bind_eq_ok.1 ef
  cases ef
  exact common_hull ec

theorem write3_hull {dbg : Bool} {m : Tess R} {x : Extras R} {f : File3 R} (ef : write3 dbg m x = .ok f) : f.common.convexhull = hullArray m := by
  rw [write3] at ef
  obtain ⟨co, -, ef⟩ := Res.bind_eq_ok.1 ef
  obtain ⟨bd, -, ef⟩ := Res.bind_eq_ok.1 ef
  obtain ⟨cm, ec, ef⟩ := Res.bind_eq_ok.1 ef
  cases ef
  exact common_hull ec

/-- The convex hull of the mesh is never in the file: for every mesh with a convex hull the file written from C has a hull of no facets, and it is never the
file that the C++ writer writes for the mesh, with whatever fields. -/
theorem C83_hull_fails (dbg : Bool) {dim : Nat} {t : Tess R} {c : CTess R} (hdim : c.dimension = dim) (h : Whole dim t) (hd : Describes dim c t)
    (hh : t.convexHull.facets ≠ []) {a : CArgs R} (ha : a.TagsFit) {leaks : List (List Nat)} :
    (∀ f, dim = 2 → cWrite dbg c a = .ok ⟨.two f, leaks⟩ → HasHull [] f.common.convexhull ∧ ∀ x, write2 dbg t x ≠ .ok f) ∧
    ∀ f, dim = 3 → cWrite dbg c a = .ok ⟨.three f, leaks⟩ → HasHull [] f.common.convexhull ∧ ∀ x, write3 dbg t x ≠ .ok f := by
  have hne : hullArray { t with convexHull := {} } ≠ hullArray t := by
    intro he
    have := congrArg Compound.data he
    simp only [hullArray, List.cons_append, List.cons.injEq] at this
    have h0 : (0 : Int) = t.convexHull.facets.length := this.1
    apply hh
    rw [← List.length_eq_zero_iff]
    omega
  constructor
  · intro f h2 hw
    subst h2
    obtain ⟨x, l, hx, -, e⟩ := C83_2d_partial dbg hdim h hd ha
    rw [e] at hw
    obtain ⟨g, eg, hw⟩ := Res.bind_eq_ok.1 hw
    cases hw
    have := write2_hull eg
    refine ⟨?_, fun x' hx' => hne (this.symm.trans (write2_hull hx'))⟩
    rw [this]
    exact ⟨rfl, rfl, rfl, rfl, rfl⟩
  · intro f h3 hw
    subst h3
    obtain ⟨x, l, hx, -, e⟩ := C83_3d_partial dbg hdim h hd ha
    rw [e] at hw
    obtain ⟨g, eg, hw⟩ := Res.bind_eq_ok.1 hw
    cases hw
    have := write3_hull eg
    refine ⟨?_, fun x' hx' => hne (this.symm.trans (write3_hull hx'))⟩
    rw [this]
    exact ⟨rfl, rfl, rfl, rfl, rfl⟩

/-- Whenever two tags of a kind have the same name, a call that succeeds leaks memory. -/
theorem C83_leak_fails (dbg : Bool) {c : CTess R} {a : CArgs R} (ha : a.TagsFit) (hn : ∃ ts ∈ a.tagKinds, ¬ (ts.map CTag.name).Nodup) {r : CResult (AnyFile R)}
    (hr : cWrite dbg c a = .ok r) : ∃ l ∈ r.leaks, l ≠ [] := by
  obtain ⟨ts, hts, hn⟩ := hn
  obtain ⟨x, leaks, -, ⟨h4, hl⟩, e⟩ := cWrite_args dbg c ha
  rw [e] at hr
  obtain ⟨f, -, hr⟩ := Res.bind_eq_ok.1 hr
  cases hr
  obtain ⟨k, hk⟩ := List.mem_iff_getElem?.1 hts
  have hk4 : k < 4 := (List.getElem?_eq_some_iff.1 hk).1
  have hlk : leaks[k]? = some leaks[k] := List.getElem?_eq_getElem (by omega)
  refine ⟨leaks[k], List.getElem_mem _, fun h0 => hn ?_⟩
  rw [List.nodup_iff_getElem?_ne_getElem?]
  intro i j hij hj heq
  rw [List.length_map] at hj
  have hmem := (hl k ts _ hk hlk i).2 ⟨ts[i], List.getElem?_eq_getElem (by omega), j, hij, ts[j], List.getElem?_eq_getElem hj, by
    rw [List.getElem?_map, List.getElem?_map, List.getElem?_eq_getElem hj, List.getElem?_eq_getElem (by omega : i < ts.length)] at heq
    simpa using heq.symm⟩
  rw [h0] at hmem
  cases hmem

/-! ### An instance -/

/-- Two triangles as a C object: what `polytope_tessellate…` makes of them. -/
example : ∃ c, exportTo true 2 twoTriangles { dimension := 2 } = .ok c ∧ c.dimension = 2 ∧ Describes 2 c twoTriangles ∧ Whole 2 twoTriangles ∧
    ∃ r f, cWrite true c { cellTags := [⟨"left", 1, [0]⟩, ⟨"left", 1, [1]⟩] } = .ok r ∧ r.leaks = [[], [], [], [0]] ∧ r.file = .two f ∧
      f.common.cellTags = some { elemNames := [""], elemLengths := [1], data := [1] } := by
  have hw : Whole 2 twoTriangles := ⟨by decide, by decide, by decide, by decide, by decide⟩
  obtain ⟨c, e, hd, -⟩ := C74_export true twoTriangles { dimension := 2 } hw
  have e' := e
  cases e'
  exact ⟨_, rfl, rfl, hd, hw, _, _, rfl, by decide, rfl, by decide⟩

end Silo
end Verif
