import Verif.Proofs.SolidEdge
/-
Which polygons the operations on the trees of two solids keep.
-/
namespace Verif.Csg
open Verif Verif.Geom Verif.Mesh

variable {K : Type} [Field K] [LinearOrder K] [IsStrictOrderedRing K]

/-- A tree that decides which points that are in none of its planes are in `S`. -/
structure Dec (t : Tree (Poly K) (Plane K)) (S : Set (V3 K)) : Prop where
  k : AllOk (polyOps 0) t
  ne : t ≠ .nil
  out : ∀ q, Sharp t q → (Out (polyOps 0) (polyGeo 0) true t q ↔ q ∉ S)
  isin : ∀ q, Sharp t q → (In (polyOps 0) (polyGeo 0) true t q ↔ q ∈ S)

/-- The tree of a solid. -/
structure Solid (t : Tree (Poly K) (Plane K)) (S : Set (V3 K)) : Prop extends Dec t S where
  w : AllW (polyOps 0) PolyW t
  placed : Placed t
  faces : ∀ x ∈ all t, Faces S x
  sep : ∀ p q, (∀ s, 0 ≤ s → s ≤ 1 → ∀ x ∈ all t, ¬ Hull3 x.verts (lerp3 p q s)) → (p ∈ S ↔ q ∈ S)

/-- Just off `c` in the direction `m` is space outside `S`. -/
def Free (S : Set (V3 K)) (c m : V3 K) : Prop := ∃ d, 0 < d ∧ ∀ t, 0 < t → t < d → c + V3.scale t m ∉ S

/-- There is space outside `S` in front of `x`. -/
def FreeFront (S : Set (V3 K)) (x : Poly K) : Prop := ∀ c, Inner x.verts c → Free S c x.plane.normal
/-- There is space outside `S` behind `x`. -/
def FreeBack (S : Set (V3 K)) (x : Poly K) : Prop := ∀ c, Inner x.verts c → Free S c (V3.scale (-1) x.plane.normal)

theorem Free.scale {S : Set (V3 K)} {c m : V3 K} {k : K} (k0 : 0 < k) (h : Free S c m) : Free S c (V3.scale k m) := by
  obtain ⟨e, e0, he⟩ := h
  refine ⟨e / k, div_pos e0 k0, fun s s0 s1 => ?_⟩
  have : V3.scale s (V3.scale k m) = V3.scale (s * k) m := by ext <;> simp [V3.scale, mul_assoc]
  rw [this]
  exact he _ (mul_pos s0 k0) ((lt_div_iff₀ k0).1 s1)

omit [LinearOrder K] [IsStrictOrderedRing K] in
theorem scale_comm (j k : K) (m : V3 K) : V3.scale j (V3.scale k m) = V3.scale k (V3.scale j m) := by
  ext <;> simp only [V3.scale_x, V3.scale_y, V3.scale_z] <;> ring

omit [LinearOrder K] [IsStrictOrderedRing K] in
theorem scale_neg_neg (m : V3 K) : V3.scale (-1) (V3.scale (-1) m) = m := by
  ext <;> simp only [V3.scale_x, V3.scale_y, V3.scale_z] <;> ring

theorem FreeFront.part {S : Set (V3 K)} {e x : Poly K} (h : FreeFront S e) (hx : PartOf e.plane.normal e.verts x) : FreeFront S x := by
  intro c hc
  obtain ⟨k, k0, hk⟩ := hx.dir
  rw [hk]; exact (h c (hx.inner hc)).scale k0

theorem FreeBack.part {S : Set (V3 K)} {e x : Poly K} (h : FreeBack S e) (hx : PartOf e.plane.normal e.verts x) : FreeBack S x := by
  intro c hc
  obtain ⟨k, k0, hk⟩ := hx.dir
  rw [hk, scale_comm]; exact (h c (hx.inner hc)).scale k0

theorem faces_part {S : Set (V3 K)} {e x : Poly K} (h : Faces S e) (hx : PartOf e.plane.normal e.verts x) : Faces S x := Faces.part hx h

theorem inner_flip {x : Poly K} {c : V3 K} : Inner x.flip.verts c ↔ Inner x.verts c := by
  have e : ∀ v, v ∈ x.flip.verts ↔ v ∈ x.verts := by intro v; simp [Poly.flip]
  simp only [Inner, e]
  have : Hull3 x.flip.verts c ↔ Hull3 x.verts c := ⟨hull_mono fun v hv => .pt ((e v).1 hv), hull_mono fun v hv => .pt ((e v).2 hv)⟩
  rw [this]

theorem hull_flip {x : Poly K} {c : V3 K} : Hull3 x.flip.verts c ↔ Hull3 x.verts c := by
  have e : ∀ v, v ∈ x.flip.verts ↔ v ∈ x.verts := by intro v; simp [Poly.flip]
  exact ⟨hull_mono fun v hv => .pt ((e v).1 hv), hull_mono fun v hv => .pt ((e v).2 hv)⟩

theorem faces_flip {S : Set (V3 K)} {x : Poly K} (h : Faces S x) : Faces Sᶜ x.flip := by
  intro c hc
  obtain ⟨d, d0, hd⟩ := h c (inner_flip.1 hc)
  refine ⟨d, d0, fun t t0 t1 => ?_⟩
  obtain ⟨h1, h2⟩ := hd t t0 t1
  rw [normal_flip]
  have e1 : c - V3.scale t (V3.scale (-1) x.plane.normal) = c + V3.scale t x.plane.normal := by
    ext <;> simp only [V3.sub_x, V3.sub_y, V3.sub_z, V3.add_x, V3.add_y, V3.add_z, V3.scale_x, V3.scale_y, V3.scale_z] <;> ring
  have e2 : c + V3.scale t (V3.scale (-1) x.plane.normal) = c - V3.scale t x.plane.normal := by
    ext <;> simp only [V3.sub_x, V3.sub_y, V3.sub_z, V3.add_x, V3.add_y, V3.add_z, V3.scale_x, V3.scale_y, V3.scale_z] <;> ring
  rw [e1, e2]
  exact ⟨h2, fun h => h h1⟩

theorem front_flip {S : Set (V3 K)} {x : Poly K} : FreeFront S x.flip ↔ FreeBack S x := by
  simp only [FreeFront, FreeBack, inner_flip, normal_flip]

theorem back_flip {S : Set (V3 K)} {x : Poly K} : FreeBack S x.flip ↔ FreeFront S x := by
  simp only [FreeFront, FreeBack, inner_flip, normal_flip, scale_neg_neg]

theorem Dec.clipTo {o t : Tree (Poly K) (Plane K)} {S : Set (V3 K)} (h : Dec t S) : Dec (clipTo (polyOps 0) o t) S where
  k := (allOk_clipTo o t).2 h.k
  ne := fun e => h.ne ((clipTo_ne_nil o t).1 e)
  out := fun q hq => (out_clipTo o t true q).trans (h.out q ((sharp_clipTo o t q).1 hq))
  isin := fun q hq => (in_clipTo o t true q).trans (h.isin q ((sharp_clipTo o t q).1 hq))

theorem Dec.invert {t : Tree (Poly K) (Plane K)} {S : Set (V3 K)} (h : Dec t S) : Dec (invert (polyOps 0) t) Sᶜ where
  k := (allOk_invert (polyFlips' 0) t).2 h.k
  ne := fun e => h.ne ((invert_ne_nil t).1 e)
  out := fun q hq => by
    rw [out_invert (polyFlips' 0) t true q h.k, in_root h.ne _ true q, h.isin q ((sharp_invert t q).1 hq)]; simp
  isin := fun q hq => by
    rw [in_invert (polyFlips' 0) t true q h.k, out_root h.ne _ true q, h.out q ((sharp_invert t q).1 hq)]; simp

theorem Solid.invert {t : Tree (Poly K) (Plane K)} {S : Set (V3 K)} (h : Solid t S) : Solid (invert (polyOps 0) t) Sᶜ where
  toDec := h.toDec.invert
  w := allW_invert (polyLaws (le_refl 0)).toSplitLaws h.w
  placed := placed_invert h.placed
  faces := fun x hx => by
    obtain ⟨y, hy, rfl⟩ := (mem_all_invert t x).1 hx
    exact faces_flip (h.faces y hy)
  sep := fun p q hpq => by
    rw [Set.mem_compl_iff, Set.mem_compl_iff, h.sep p q fun s s0 s1 x hx hh => hpq s s0 s1 _ ((mem_all_invert t _).2 ⟨x, hx, rfl⟩) (hull_flip.2 hh)]

/-! ### What is kept is in front of free space -/

theorem clipTo_mem {o t : Tree (Poly K) (Plane K)} {x : Poly K} : x ∈ all (clipTo (polyOps 0) o t) ↔ ∃ e ∈ all t, x ∈ clipD (polyOps 0) true o [e] := by
  rw [mem_all_clipTo, ← clipD_true]; exact clipD_mem o true _ x

theorem clipTo_free {o t : Tree (Poly K) (Plane K)} {S : Set (V3 K)} (ho : Dec o S) (ht : AllW (polyOps 0) PolyW t) : ∀ x ∈ all (clipTo (polyOps 0) o t), FreeFront S x := by
  intro x hx c hc
  obtain ⟨e, he, hx⟩ := clipTo_mem.1 hx
  obtain ⟨d, d0, hd⟩ := clip_outDir o true ho.k e (ht e he) x hx c hc
  exact ⟨d, d0, fun t t0 t1 => (ho.out _ (hd t t0 t1).2).1 (hd t t0 t1).1⟩

theorem clipTo_D' {o t : Tree (Poly K) (Plane K)} {D : Poly K → Prop} (hD : ∀ e x, D e → PartOf e.plane.normal e.verts x → D x) (ht : AllW (polyOps 0) PolyW t) (h : ∀ x ∈ all t, D x) :
    ∀ x ∈ all (clipTo (polyOps 0) o t), D x := by
  intro x hx
  obtain ⟨e, he, hx⟩ := clipTo_mem.1 hx
  exact hD e x (h e he) (parts_clip (ht e he) hx)

theorem faces_union_left {SA SB : Set (V3 K)} {x : Poly K} (h : Faces SA x) (h' : FreeFront SB x) : Faces (SA ∪ SB) x := by
  intro c hc
  obtain ⟨d, d0, hd⟩ := h c hc
  obtain ⟨i, i0, hi⟩ := h' c hc
  refine ⟨min d i, lt_min d0 i0, fun t t0 t1 => ?_⟩
  obtain ⟨h1, h2⟩ := hd t t0 (lt_of_lt_of_le t1 (min_le_left _ _))
  exact ⟨Or.inl h1, not_or.2 ⟨h2, hi t t0 (lt_of_lt_of_le t1 (min_le_right _ _))⟩⟩

/-! ### What is kept -/

/-- A point that is in no plane of a tree. -/
theorem sharp_of_off {t : Tree (Poly K) (Plane K)} {q : V3 K} (h : ∀ p ∈ planes t, dot3 p.normal q ≠ p.w) : Sharp t q := by
  induction t with
  | nil => trivial
  | node els p f b ihf ihb =>
    rcases lt_or_gt_of_ne (h p (by simp [planes])) with h' | h'
    · exact Or.inr ⟨h', ihb fun p hp => h p (by simp [planes, hp])⟩
    · exact Or.inl ⟨h', ihf fun p hp => h p (by simp [planes, hp])⟩

theorem ok_planes {t : Tree (Poly K) (Plane K)} (h : AllOk (polyOps 0) t) : ∀ p ∈ planes t, p.normal ≠ 0 := by
  induction t with
  | nil => simp [planes]
  | node els p f b ihf ihb =>
    obtain ⟨h1, h2, h3⟩ := h
    intro p' hp'
    simp only [planes, List.mem_cons, List.mem_append] at hp'
    rcases hp' with rfl | hp' | hp'
    · exact ok_normal.1 h1
    · exact ihf h2 p' hp'
    · exact ihb h3 p' hp'

/-- Points just off a point leave all planes that the direction is not in. -/
theorem off_little (c m : V3 K) : ∀ l : List (Plane K), (∀ p ∈ l, dot3 p.normal c = p.w → dot3 p.normal m ≠ 0) →
    ∃ d, 0 < d ∧ ∀ t, t ≠ 0 → -d < t → t < d → ∀ p ∈ l, dot3 p.normal (c + V3.scale t m) ≠ p.w
  | [], _ => ⟨1, one_pos, by simp⟩
  | p :: l, h => by
    obtain ⟨d, d0, hd⟩ := off_little c m l fun p hp => h p (List.mem_cons_of_mem _ hp)
    have : ∃ i, 0 < i ∧ ∀ t, t ≠ 0 → -i < t → t < i → dot3 p.normal (c + V3.scale t m) ≠ p.w := by
      rcases lt_trichotomy (dot3 p.normal c) p.w with h' | h' | h'
      · obtain ⟨i, i0, hi⟩ := back_little m h'
        exact ⟨i, i0, fun t _ t1 t2 => (hi t t1 t2).ne⟩
      · refine ⟨1, one_pos, fun t t0 _ _ => ?_⟩
        rw [dot_add', dot_scale', h']
        have := mul_ne_zero t0 (h p (by simp) h')
        simpa using this
      · obtain ⟨i, i0, hi⟩ := front_little m h'
        exact ⟨i, i0, fun t _ t1 t2 => (hi t t1 t2).ne'⟩
    obtain ⟨i, i0, hi⟩ := this
    refine ⟨min d i, lt_min d0 i0, fun t t0 t1 t2 p' hp' => ?_⟩
    have l1 := min_le_left d i
    have l2 := min_le_right d i
    rcases List.mem_cons.1 hp' with rfl | hp'
    · exact hi t t0 (by linarith) (by linarith)
    · exact hd t t0 (by linarith) (by linarith) p' hp'

/-- Free space in front of a polygon, at a point where only planes with the whole polygon in them pass: the point is kept. -/
theorem keep_gen {o : Tree (Poly K) (Plane K)} {S : Set (V3 K)} (ho : Dec o S) {e : Poly K} (he : PolyW e) {v : V3 K} (hv : Hull3 e.verts v) (hg : Gen o e v)
    (hf : Free S v e.plane.normal) : ∃ x ∈ clipD (polyOps 0) true o [e], Hull3 x.verts v := by
  refine clip_gen o true ho.k e he v hv hg ?_
  obtain ⟨d, d0, hd⟩ := hf
  obtain ⟨i, i0, hi⟩ := off_little v e.plane.normal (planes o) fun p hp h => dot_ne_zero (ok_planes ho.k p hp) he (hg p hp h)
  refine ⟨min d i, lt_min d0 i0, fun s s0 s1 => ?_⟩
  refine (ho.out _ (sharp_of_off (hi s s0.ne' (by linarith) (lt_of_lt_of_le s1 (min_le_right _ _))))).2 (hd s s0 (lt_of_lt_of_le s1 (min_le_left _ _)))

theorem Gen.clipTo {o t : Tree (Poly K) (Plane K)} {e : Poly K} {v : V3 K} (h : Gen t e v) : Gen (clipTo (polyOps 0) o t) e v := by
  intro p hp; rw [planes_clipTo] at hp; exact h p hp

theorem Gen.invert {t : Tree (Poly K) (Plane K)} {e : Poly K} {v : V3 K} (h : Gen t e v) : Gen (invert (polyOps 0) t) e v := by
  intro p hp hv u hu
  obtain ⟨p', hp', rfl⟩ := (mem_planes_invert t p).1 hp
  rw [dot_flip] at hv ⊢
  have ew : p'.flip.w = -p'.w := by simp [Plane.flip]
  rw [ew] at hv ⊢
  rw [h p' hp' (neg_injective hv) u hu]

theorem Gen.flip {t : Tree (Poly K) (Plane K)} {e : Poly K} {v : V3 K} (h : Gen t e v) : Gen t e.flip v :=
  fun p hp hv u hu => h p hp hv u (by simpa [Poly.flip] using hu)

/-- What the result has to have of the polygons of the trees. -/
structure Keeps (a b : Tree (Poly K) (Plane K)) (SA SB : Set (V3 K)) (r : List (Poly K)) : Prop where
  left : ∀ e ∈ all a, ∀ v, Hull3 e.verts v → Gen b e v → Free SB v e.plane.normal → ∃ x ∈ r, Hull3 x.verts v
  right : ∀ e ∈ all b, ∀ v, Hull3 e.verts v → Gen a e v → Free SA v e.plane.normal → Free SA v (V3.scale (-1) e.plane.normal) → ∃ x ∈ r, Hull3 x.verts v

/-- Clipping by `o`, turning, clipping by `o'`. -/
theorem keep_twice {o o' b : Tree (Poly K) (Plane K)} {S : Set (V3 K)} (ho : Dec o S) (ho' : Dec o' S) (hb : AllW (polyOps 0) PolyW b) {e : Poly K} (he : e ∈ all b) {v : V3 K} (hv : Hull3 e.verts v)
    (hg : Gen o e v) (hg' : Gen o' e v) (hf : Free S v e.plane.normal) (hf' : Free S v (V3.scale (-1) e.plane.normal)) :
    ∃ x ∈ all (clipTo (polyOps 0) o' (invert (polyOps 0) (clipTo (polyOps 0) o b))), Hull3 x.verts v := by
  obtain ⟨y, hy, hyv⟩ := keep_gen ho (hb e he) hv hg hf
  have hpo := parts_clip (hb e he) hy
  obtain ⟨k, k0, hk⟩ := hpo.dir
  obtain ⟨z, hz, hzv⟩ := keep_gen ho' (flip_polyW hpo.wf) (hull_flip.2 hyv) (hg'.part hpo).flip (by rw [normal_flip, hk, scale_comm]; exact hf'.scale k0)
  exact ⟨z, clipTo_mem.2 ⟨y.flip, (mem_all_invert _ _).2 ⟨y, clipTo_mem.2 ⟨e, he, hy⟩, rfl⟩, hz⟩, hzv⟩

/-- What clipping twice leaves. -/
theorem twice_free {o o' b : Tree (Poly K) (Plane K)} {S SB : Set (V3 K)} (ho : Dec o S) (ho' : Dec o' S) (hb : Solid b SB) :
    ∀ x ∈ all (clipTo (polyOps 0) o' (invert (polyOps 0) (clipTo (polyOps 0) o b))), PolyW x ∧ Faces SBᶜ x ∧ FreeFront S x ∧ FreeBack S x := by
  have L := (polyLaws (le_refl (0 : K))).toSplitLaws
  have w1 : AllW (polyOps 0) PolyW (clipTo (polyOps 0) o b) := (clipTo_spec L o hb.w).1
  have w2 := allW_invert L w1
  have w3 : AllW (polyOps 0) PolyW (clipTo (polyOps 0) o' (invert (polyOps 0) (clipTo (polyOps 0) o b))) := (clipTo_spec L o' w2).1
  intro x hx
  refine ⟨w3 x hx, ?_, clipTo_free ho' w2 x hx, ?_⟩
  · refine clipTo_D' (fun e x => faces_part) w2 (fun y hy => ?_) x hx
    obtain ⟨z, hz, rfl⟩ := (mem_all_invert _ y).1 hy
    exact faces_flip (clipTo_D' (fun e x => faces_part) hb.w hb.faces z hz)
  · refine clipTo_D' (fun e x => FreeBack.part) w2 (fun y hy => ?_) x hx
    obtain ⟨z, hz, rfl⟩ := (mem_all_invert _ y).1 hy
    exact back_flip.2 (clipTo_free ho hb.w z hz)

theorem good_pieces (S : Set (V3 K)) : PieceClosed (polyOps 0) fun x : Poly K => PolyW x ∧ Faces S x := by
  rintro p x ⟨hx, h⟩ y hy
  have := partOf_split p hx hy
  exact ⟨this.wf, faces_part h this⟩

/-- The union of two solids. -/
theorem union_bound {a b : Tree (Poly K) (Plane K)} {SA SB : Set (V3 K)} (ha : Solid a SA) (hb : Solid b SB) :
    ∃ N r, (∀ n, N ≤ n → unionT (polyOps 0) n a b = some r) ∧ (∀ x ∈ all r, PolyW x ∧ Faces (SA ∪ SB) x) ∧ Keeps a b SA SB (all r) := by
  have L := polyLaws (le_refl (0 : K))
  set a1 := clipTo (polyOps 0) b a with ha1
  set b1 := clipTo (polyOps 0) a1 b with hb1
  set b2 := clipTo (polyOps 0) a1 (invert (polyOps 0) b1) with hb2
  have d1 : Dec a1 SA := ha.toDec.clipTo
  have w1 : AllW (polyOps 0) PolyW a1 := (clipTo_spec L.toSplitLaws b ha.w).1
  have t2 := twice_free d1 d1 hb
  have w3 : AllW (polyOps 0) PolyW (invert (polyOps 0) b2) := allW_invert L.toSplitLaws fun x hx => (t2 x hx).1
  obtain ⟨N, r, hr, w, k, e⟩ := finish_spec L (a := a1) (b := invert (polyOps 0) b2) id (fun _ h => h) (fun _ => rfl) w1 d1.k w3
  refine ⟨N, r, hr, ?_, ?_, ?_⟩
  · refine finish_D (good_pieces _) (good_pieces (SA ∪ SB)) (g := id) (fun t h => h) (hr N le_rfl) ?_ ?_
    · intro x hx
      exact ⟨w1 x hx, faces_union_left (clipTo_D' (fun e x => faces_part) ha.w ha.faces x hx) (clipTo_free hb.toDec ha.w x hx)⟩
    · intro x hx
      obtain ⟨y, hy, rfl⟩ := (mem_all_invert _ x).1 hx
      obtain ⟨g1, g2, g3, g4⟩ := t2 y hy
      have := faces_flip g2
      rw [compl_compl] at this
      refine ⟨flip_polyW g1, ?_⟩
      rw [Set.union_comm]
      exact faces_union_left this (front_flip.2 g4)
  · intro q hq v hv hg hf
    obtain ⟨x, hx, hxv⟩ := keep_gen hb.toDec (ha.w q hq) hv hg hf
    have : v ∈ (polyGeo (0 : K)).points (all r) := by rw [e]; exact Or.inl ⟨x, clipTo_mem.2 ⟨q, hq, hx⟩, hxv⟩
    exact this
  · intro q hq v hv hg hf hf'
    obtain ⟨x, hx, hxv⟩ := keep_twice d1 d1 hb.w hq hv hg.clipTo hg.clipTo hf hf'
    have : v ∈ (polyGeo (0 : K)).points (all r) := by rw [e]; exact Or.inr ⟨x.flip, (mem_all_invert _ _).2 ⟨x, hx, rfl⟩, hull_flip.2 hxv⟩
    exact this

/-- The difference of two solids. -/
theorem subtract_bound {a b : Tree (Poly K) (Plane K)} {SA SB : Set (V3 K)} (ha : Solid a SA) (hb : Solid b SB) :
    ∃ N r, (∀ n, N ≤ n → subtractT (polyOps 0) n a b = some r) ∧ (∀ x ∈ all r, PolyW x ∧ Faces (SAᶜ ∪ SB)ᶜ x) ∧ Keeps (invert (polyOps 0) a) b SAᶜ SB (all r) := by
  have L := polyLaws (le_refl (0 : K))
  have hi := ha.invert
  set ai := invert (polyOps 0) a with hai
  set a1 := clipTo (polyOps 0) b ai with ha1
  set b1 := clipTo (polyOps 0) a1 b with hb1
  set b2 := clipTo (polyOps 0) a1 (invert (polyOps 0) b1) with hb2
  have d1 : Dec a1 SAᶜ := hi.toDec.clipTo
  have w1 : AllW (polyOps 0) PolyW a1 := (clipTo_spec L.toSplitLaws b hi.w).1
  have t2 := twice_free d1 d1 hb
  have w3 : AllW (polyOps 0) PolyW (invert (polyOps 0) b2) := allW_invert L.toSplitLaws fun x hx => (t2 x hx).1
  obtain ⟨N, r, hr, w, k, e⟩ := finish_spec L (a := a1) (b := invert (polyOps 0) b2) (invert (polyOps 0)) (fun _ h => allW_invert L.toSplitLaws h) (points_invert L.toSplitLaws) w1 d1.k w3
  refine ⟨N, r, hr, ?_, ?_, ?_⟩
  · refine finish_D (good_pieces _) (good_pieces (SAᶜ ∪ SB)) (g := invert (polyOps 0)) (fun t h x hx => ?_) (hr N le_rfl) ?_ ?_
    · obtain ⟨y, hy, rfl⟩ := (mem_all_invert _ x).1 hx
      exact ⟨flip_polyW (h y hy).1, faces_flip (h y hy).2⟩
    · intro x hx
      exact ⟨w1 x hx, faces_union_left (clipTo_D' (fun e x => faces_part) hi.w hi.faces x hx) (clipTo_free hb.toDec hi.w x hx)⟩
    · intro x hx
      obtain ⟨y, hy, rfl⟩ := (mem_all_invert _ x).1 hx
      obtain ⟨g1, g2, g3, g4⟩ := t2 y hy
      have := faces_flip g2
      rw [compl_compl] at this
      refine ⟨flip_polyW g1, ?_⟩
      rw [Set.union_comm]
      exact faces_union_left this (front_flip.2 g4)
  · intro q hq v hv hg hf
    obtain ⟨x, hx, hxv⟩ := keep_gen hb.toDec (hi.w q hq) hv hg hf
    have : v ∈ (polyGeo (0 : K)).points (all r) := by rw [e]; exact Or.inl ⟨x, clipTo_mem.2 ⟨q, hq, hx⟩, hxv⟩
    exact this
  · intro q hq v hv hg hf hf'
    obtain ⟨x, hx, hxv⟩ := keep_twice d1 d1 hb.w hq hv hg.clipTo hg.clipTo hf hf'
    have : v ∈ (polyGeo (0 : K)).points (all r) := by rw [e]; exact Or.inr ⟨x.flip, (mem_all_invert _ _).2 ⟨x, hx, rfl⟩, hull_flip.2 hxv⟩
    exact this

/-- The intersection of two solids. -/
theorem intersect_bound {a b : Tree (Poly K) (Plane K)} {SA SB : Set (V3 K)} (ha : Solid a SA) (hb : Solid b SB) :
    ∃ N r, (∀ n, N ≤ n → intersectT (polyOps 0) n a b = some r) ∧ (∀ x ∈ all r, PolyW x ∧ Faces (SAᶜ ∪ SBᶜ)ᶜ x)
      ∧ Keeps (invert (polyOps 0) a) (invert (polyOps 0) b) SAᶜ SBᶜ (all r) := by
  have L := polyLaws (le_refl (0 : K))
  have hi := ha.invert
  set ai := invert (polyOps 0) a with hai
  set b1 := clipTo (polyOps 0) ai b with hb1
  set bi := invert (polyOps 0) b1 with hbi
  set a1 := clipTo (polyOps 0) bi ai with ha1
  set b2 := clipTo (polyOps 0) a1 bi with hb2
  have db : Dec bi SBᶜ := hb.toDec.clipTo.invert
  have d1 : Dec a1 SAᶜ := hi.toDec.clipTo
  have w1 : AllW (polyOps 0) PolyW a1 := (clipTo_spec L.toSplitLaws bi hi.w).1
  have t2 : ∀ x ∈ all b2, _ := twice_free hi.toDec d1 hb
  have w3 : AllW (polyOps 0) PolyW b2 := fun x hx => (t2 x hx).1
  obtain ⟨N, r, hr, w, k, e⟩ := finish_spec L (a := a1) (b := b2) (invert (polyOps 0)) (fun _ h => allW_invert L.toSplitLaws h) (points_invert L.toSplitLaws) w1 d1.k w3
  refine ⟨N, r, hr, ?_, ?_, ?_⟩
  · refine finish_D (good_pieces _) (good_pieces (SAᶜ ∪ SBᶜ)) (g := invert (polyOps 0)) (fun t h x hx => ?_) (hr N le_rfl) ?_ ?_
    · obtain ⟨y, hy, rfl⟩ := (mem_all_invert _ x).1 hx
      exact ⟨flip_polyW (h y hy).1, faces_flip (h y hy).2⟩
    · intro x hx
      exact ⟨w1 x hx, faces_union_left (clipTo_D' (fun e x => faces_part) hi.w hi.faces x hx) (clipTo_free db hi.w x hx)⟩
    · intro x hx
      obtain ⟨g1, g2, g3, g4⟩ := t2 x hx
      refine ⟨g1, ?_⟩
      rw [Set.union_comm]
      exact faces_union_left g2 g3
  · intro q hq v hv hg hf
    have hg' : Gen bi q v := by
      have : Gen b q v := by
        have := hg.invert
        rwa [invert_invert (polyFlips' 0)] at this
      exact this.clipTo.invert
    obtain ⟨x, hx, hxv⟩ := keep_gen db (hi.w q hq) hv hg' hf
    have : v ∈ (polyGeo (0 : K)).points (all r) := by rw [e]; exact Or.inl ⟨x, clipTo_mem.2 ⟨q, hq, hx⟩, hxv⟩
    exact this
  · intro q hq v hv hg hf hf'
    obtain ⟨q', hq', rfl⟩ := (mem_all_invert _ q).1 hq
    have hv' : Hull3 q'.verts v := hull_flip.1 hv
    have en : ((polyOps (0 : K)).flipE q').plane.normal = V3.scale (-1) q'.plane.normal := normal_flip q'
    rw [en] at hf hf'
    rw [scale_neg_neg] at hf'
    have hg' : Gen ai q' v := by
      have := hg.flip
      intro p hp hpv u hu
      exact hg p hp hpv u (by show u ∈ q'.flip.verts; simpa [Poly.flip] using hu)
    obtain ⟨x, hx, hxv⟩ := keep_twice hi.toDec d1 hb.w hq' hv' hg' hg'.clipTo hf' hf
    have : v ∈ (polyGeo (0 : K)).points (all r) := by rw [e]; exact Or.inr ⟨x, hx, hxv⟩
    exact this

end Verif.Csg
