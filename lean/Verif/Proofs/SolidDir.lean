import Verif.Proofs.SmallEps
/-
Which way the polygons of the results face.
-/
namespace Verif.Csg
open Verif Verif.Geom Verif.Mesh

/-! ### What holds for all pieces -/

section
variable {E P : Type} {O : Ops E P} {D : E → Prop}

/-- What holds for an element holds for its pieces. -/
def PieceClosed (O : Ops E P) (D : E → Prop) : Prop :=
  ∀ p x, D x → ∀ y, y ∈ (O.split p x).coFront ∨ y ∈ (O.split p x).coBack ∨ y ∈ (O.split p x).front ∨ y ∈ (O.split p x).back → D y

theorem clipD_D (hD : PieceClosed O D) (t : Tree E P) : ∀ (d : Bool) (l : List E), (∀ x ∈ l, D x) → ∀ y ∈ clipD O d t l, D y := by
  induction t with
  | nil => intro d l hl y hy; cases d <;> simp [clipD] at hy; exact hl y hy
  | node els p f b ihf ihb =>
    intro d l hl y hy
    have h : clipD O d (.node els p f b) l = clip O (.node els p f b) l := rfl
    rw [h, clip_node] at hy
    cases hp : O.ok p
    · simp only [hp, Bool.false_eq_true, if_false] at hy; exact hl y hy
    · simp only [hp, if_true, List.mem_append] at hy
      rcases hy with hy | hy
      · refine ihf true _ (fun x hx => ?_) y hy
        obtain ⟨e, he, h⟩ := mem_clipFront.1 hx
        exact hD p e (hl e he) x (by tauto)
      · refine ihb false _ (fun x hx => ?_) y hy
        obtain ⟨e, he, h⟩ := mem_clipBack.1 hx
        exact hD p e (hl e he) x (by tauto)

theorem clipTo_D (hD : PieceClosed O D) (o : Tree E P) {t : Tree E P} (h : ∀ x ∈ all t, D x) : ∀ y ∈ all (clipTo O o t), D y := by
  intro y hy
  rw [mem_all_clipTo, ← clipD_true] at hy
  exact clipD_D hD o true _ h y hy

theorem build_D (hD : PieceClosed O D) : ∀ (n : Nat) (t : Tree E P) (l : List E), (∀ x ∈ all t, D x) → (∀ x ∈ l, D x) → ∀ t', build O n t l = some t' → ∀ x ∈ all t', D x := by
  intro n
  induction n with
  | zero =>
    intro t l ht hl t' h
    cases l with
    | nil => simp only [build, Option.some.injEq] at h; subst h; exact ht
    | cons e l => simp [build] at h
  | succ n ih =>
    intro t l ht hl t' h
    cases l with
    | nil => simp only [build, Option.some.injEq] at h; subst h; exact ht
    | cons e l =>
      obtain ⟨els, p', f, b, f', b', h1, h2, h3, hf', hb', rfl⟩ : ∃ els p' f b f' b', (∀ x ∈ els, D x) ∧ (∀ x ∈ all f, D x) ∧ (∀ x ∈ all b, D x)
          ∧ build O n f ((e :: l).flatMap fun x => (O.split p' x).front) = some f' ∧ build O n b ((e :: l).flatMap fun x => (O.split p' x).back) = some b'
          ∧ t' = .node (els ++ (e :: l).flatMap fun x => (O.split p' x).coFront ++ (O.split p' x).coBack) p' f' b' := by
        rw [build_cons] at h
        cases t with
        | nil =>
          dsimp only at h
          split at h
          · rename_i f' b' hf' hb'
            simp only [Option.some.injEq] at h
            exact ⟨[], _, .nil, .nil, f', b', by simp, by simp [all], by simp [all], hf', hb', h.symm⟩
          · exact absurd h (by simp)
        | node els p f b =>
          dsimp only at h
          split at h
          · rename_i f' b' hf' hb'
            simp only [Option.some.injEq] at h
            exact ⟨els, _, f, b, f', b', fun x hx => ht x (mem_all_node.2 (Or.inl hx)), fun x hx => ht x (mem_all_node.2 (Or.inr (Or.inl hx))),
              fun x hx => ht x (mem_all_node.2 (Or.inr (Or.inr hx))), hf', hb', h.symm⟩
          · exact absurd h (by simp)
      have hpc : ∀ x ∈ e :: l, ∀ y, y ∈ (O.split p' x).coFront ∨ y ∈ (O.split p' x).coBack ∨ y ∈ (O.split p' x).front ∨ y ∈ (O.split p' x).back → D y :=
        fun x hx y hy => hD p' x (hl x hx) y hy
      intro x hx
      rcases mem_all_node.1 hx with hx | hx | hx
      · rcases List.mem_append.1 hx with hx | hx
        · exact h1 x hx
        · obtain ⟨y, hy, hx⟩ := List.mem_flatMap.1 hx
          exact hpc y hy x (by rcases List.mem_append.1 hx with h | h <;> tauto)
      · refine ih f _ h2 (fun x hx => ?_) f' hf' x hx
        obtain ⟨y, hy, hx⟩ := List.mem_flatMap.1 hx
        exact hpc y hy x (by tauto)
      · refine ih b _ h3 (fun x hx => ?_) b' hb' x hx
        obtain ⟨y, hy, hx⟩ := List.mem_flatMap.1 hx
        exact hpc y hy x (by tauto)

theorem finish_D (hD : PieceClosed O D) {D' : E → Prop} (hD' : PieceClosed O D') {g : Tree E P → Tree E P} (hg : ∀ t, (∀ x ∈ all t, D' x) → ∀ x ∈ all (g t), D x) {n : Nat} {a : Tree E P} {l : List E} {r : Tree E P}
    (h : ((build O n a l).bind fun a => build O n .nil (all (g a))) = some r) (ha : ∀ x ∈ all a, D' x) (hl : ∀ x ∈ l, D' x) : ∀ x ∈ all r, D x := by
  cases hb : build O n a l with
  | none => rw [hb] at h; simp at h
  | some t =>
    rw [hb, Option.bind_some] at h
    exact build_D hD n .nil _ (by simp [all]) (hg t (build_D hD' n a l ha hl t hb)) r h

variable {A B A' B' : E → Prop}

/-- Which elements the results have. `A'` and `B'` are the elements that are flipped ones of `A` and `B`. -/
theorem union_D (hA : PieceClosed O A) (hB : PieceClosed O B) (hB' : PieceClosed O B') (fB : ∀ x, B x → B' (O.flipE x)) (fB' : ∀ x, B' x → B (O.flipE x))
    {n : Nat} {a b r : Tree E P} (ha : ∀ x ∈ all a, A x) (hb : ∀ x ∈ all b, B x) (h : unionT O n a b = some r) : ∀ x ∈ all r, A x ∨ B x := by
  have hAB : PieceClosed O fun x => A x ∨ B x := fun p x hx y hy => hx.elim (fun h => Or.inl (hA p x h y hy)) fun h => Or.inr (hB p x h y hy)
  have inv : ∀ {D D' : E → Prop}, (∀ x, D x → D' (O.flipE x)) → ∀ t, (∀ x ∈ all t, D x) → ∀ x ∈ all (invert O t), D' x := by
    intro D D' hf t ht x hx
    obtain ⟨e, he, rfl⟩ := (mem_all_invert t x).1 hx
    exact hf e (ht e he)
  refine finish_D hAB hAB (g := id) (fun t h => h) h (fun x hx => Or.inl (clipTo_D hA b ha x hx)) (fun x hx => Or.inr ?_)
  exact inv fB' _ (clipTo_D hB' _ (inv fB _ (clipTo_D hB _ hb))) x hx

theorem subtract_D (hA : PieceClosed O A) (hA' : PieceClosed O A') (hB : PieceClosed O B) (hB' : PieceClosed O B') (fA : ∀ x, A x → A' (O.flipE x)) (fA' : ∀ x, A' x → A (O.flipE x))
    (fB : ∀ x, B x → B' (O.flipE x)) (fB' : ∀ x, B' x → B (O.flipE x))
    {n : Nat} {a b r : Tree E P} (ha : ∀ x ∈ all a, A x) (hb : ∀ x ∈ all b, B x) (h : subtractT O n a b = some r) : ∀ x ∈ all r, A x ∨ B' x := by
  have hAB : PieceClosed O fun x => A x ∨ B' x := fun p x hx y hy => hx.elim (fun h => Or.inl (hA p x h y hy)) fun h => Or.inr (hB' p x h y hy)
  have hAB' : PieceClosed O fun x => A' x ∨ B x := fun p x hx y hy => hx.elim (fun h => Or.inl (hA' p x h y hy)) fun h => Or.inr (hB p x h y hy)
  have inv : ∀ {D D' : E → Prop}, (∀ x, D x → D' (O.flipE x)) → ∀ t, (∀ x ∈ all t, D x) → ∀ x ∈ all (invert O t), D' x := by
    intro D D' hf t ht x hx
    obtain ⟨e, he, rfl⟩ := (mem_all_invert t x).1 hx
    exact hf e (ht e he)
  refine finish_D hAB hAB' (g := invert O) (fun t ht => inv (fun x hx => hx.imp (fA' x) (fB x)) t ht) h (fun x hx => Or.inl (clipTo_D hA' b (inv fA _ ha) x hx)) (fun x hx => Or.inr ?_)
  exact inv fB' _ (clipTo_D hB' _ (inv fB _ (clipTo_D hB _ hb))) x hx

theorem intersect_D (hA : PieceClosed O A) (hA' : PieceClosed O A') (hB : PieceClosed O B) (hB' : PieceClosed O B') (fA : ∀ x, A x → A' (O.flipE x)) (fA' : ∀ x, A' x → A (O.flipE x))
    (fB : ∀ x, B x → B' (O.flipE x)) (fB' : ∀ x, B' x → B (O.flipE x))
    {n : Nat} {a b r : Tree E P} (ha : ∀ x ∈ all a, A x) (hb : ∀ x ∈ all b, B x) (h : intersectT O n a b = some r) : ∀ x ∈ all r, A x ∨ B x := by
  have hAB : PieceClosed O fun x => A x ∨ B x := fun p x hx y hy => hx.elim (fun h => Or.inl (hA p x h y hy)) fun h => Or.inr (hB p x h y hy)
  have hAB' : PieceClosed O fun x => A' x ∨ B' x := fun p x hx y hy => hx.elim (fun h => Or.inl (hA' p x h y hy)) fun h => Or.inr (hB' p x h y hy)
  have inv : ∀ {D D' : E → Prop}, (∀ x, D x → D' (O.flipE x)) → ∀ t, (∀ x ∈ all t, D x) → ∀ x ∈ all (invert O t), D' x := by
    intro D D' hf t ht x hx
    obtain ⟨e, he, rfl⟩ := (mem_all_invert t x).1 hx
    exact hf e (ht e he)
  have hb1 := inv fB _ (clipTo_D hB (invert O a) hb)
  refine finish_D hAB hAB' (g := invert O) (fun t ht => inv (fun x hx => hx.imp (fA' x) (fB' x)) t ht) h (fun x hx => Or.inl (clipTo_D hA' _ (inv fA _ ha) x hx)) (fun x hx => Or.inr ?_)
  exact clipTo_D hB' _ hb1 x hx
end

section
variable {K : Type} [Field K] [LinearOrder K] [IsStrictOrderedRing K]

omit [LinearOrder K] [IsStrictOrderedRing K] in
theorem normal_flip (x : Poly K) : x.flip.plane.normal = V3.scale (-1) x.plane.normal := by
  ext <;> simp [Poly.flip, Plane.flip, V3.scale]

theorem partOf_split (p : Plane K) {x y : Poly K} (hx : PolyW x)
    (hy : y ∈ (splitPoly 0 p x).coFront ∨ y ∈ (splitPoly 0 p x).coBack ∨ y ∈ (splitPoly 0 p x).front ∨ y ∈ (splitPoly 0 p x).back) : PartOf x.plane.normal x.verts y := by
  obtain ⟨h1, h2, h3⟩ := split_exact p hx
  rcases hy with hy | hy | hy | hy
  · rw [(h1 y (List.mem_append_left _ hy)).1]; exact .self hx
  · rw [(h1 y (List.mem_append_right _ hy)).1]; exact .self hx
  · exact (h2 y hy).1
  · exact (h3 y hy).1

/-- Parts of facets that are polygons. -/
def SameWay (P : RPLC K) (x : Poly K) : Prop := PolyW x ∧ PartFacing P x
def OtherWay (P : RPLC K) (x : Poly K) : Prop := PolyW x ∧ PartTurned P x

theorem sameWay_pieces (P : RPLC K) : PieceClosed (polyOps 0) (SameWay P) := by
  rintro p x ⟨hx, f, hf, hs, k, k0, hk⟩ y hy
  have h := partOf_split p hx hy
  obtain ⟨j, j0, hj⟩ := h.dir
  refine ⟨h.wf, f, hf, fun v hv => hull_mono hs (h.sub v hv), j * k, mul_pos j0 k0, ?_⟩
  rw [hj, hk]; ext <;> simp [V3.scale, mul_assoc]

theorem otherWay_pieces (P : RPLC K) : PieceClosed (polyOps 0) (OtherWay P) := by
  rintro p x ⟨hx, f, hf, hs, k, k0, hk⟩ y hy
  have h := partOf_split p hx hy
  obtain ⟨j, j0, hj⟩ := h.dir
  refine ⟨h.wf, f, hf, fun v hv => hull_mono hs (h.sub v hv), j * k, mul_neg_of_pos_of_neg j0 k0, ?_⟩
  rw [hj, hk]; ext <;> simp [V3.scale, mul_assoc]

theorem sameWay_flip (P : RPLC K) (x : Poly K) (h : SameWay P x) : OtherWay P x.flip := by
  obtain ⟨hx, f, hf, hs, k, k0, hk⟩ := h
  refine ⟨flip_polyW hx, f, hf, fun v hv => hs v (by simpa [Poly.flip] using hv), -k, by linarith, ?_⟩
  rw [normal_flip, hk]; ext <;> simp [V3.scale]

theorem otherWay_flip (P : RPLC K) (x : Poly K) (h : OtherWay P x) : SameWay P x.flip := by
  obtain ⟨hx, f, hf, hs, k, k0, hk⟩ := h
  refine ⟨flip_polyW hx, f, hf, fun v hv => hs v (by simpa [Poly.flip] using hv), -k, by linarith, ?_⟩
  rw [normal_flip, hk]; ext <;> simp [V3.scale]

theorem facet_sameWay {P : RPLC K} (hg : ∀ f ∈ P.facets, GoodFacet P f) : ∀ x ∈ P.facets.flatMap (fun f => firstTri P f :: otherTris P f), SameWay P x := by
  intro x hx
  obtain ⟨f, hf, hx⟩ := List.mem_flatMap.1 hx
  have h := facet_parts (hg f hf) x hx
  exact ⟨h.wf, f, hf, h.sub, h.dir⟩

/-- What the operations return for solids of any shape, given what happens to the trees. -/
theorem csgAny_spec (op : K → Nat → Tree (Poly K) (Plane K) → Tree (Poly K) (Plane K) → Option (Tree (Poly K) (Plane K)))
    (hsmall : ∀ n a b, SmallEps fun eps => op eps n a b = op 0 n a b)
    (hmono : ∀ eps n m, n ≤ m → ∀ a b r, op eps n a b = some r → op eps m a b = some r)
    {A B : RPLC K} {SA SB : Set (V3 K)} (hA : Bounds A SA) (hB : Bounds B SB) (keepA keepB notA notB : V3 K → Prop)
    (last : Poly K → Prop) (hlast : ∀ n a b r, (∀ x ∈ all a, SameWay A x) → (∀ x ∈ all b, SameWay B x) → op 0 n a b = some r → ∀ x ∈ all r, last x)
    (hop : ∀ a b, AllW (polyOps 0) PolyW a → AllOk (polyOps 0) a → a ≠ .nil → AllW (polyOps 0) PolyW b → AllOk (polyOps 0) b → b ≠ .nil →
      (∀ q, ¬ OnFacets3 A q → (In (polyOps 0) (polyGeo 0) true a q ↔ q ∈ SA) ∧ (Out (polyOps 0) (polyGeo 0) true a q ↔ q ∉ SA)) →
      (∀ q, ¬ OnFacets3 B q → (In (polyOps 0) (polyGeo 0) true b q ↔ q ∈ SB) ∧ (Out (polyOps 0) (polyGeo 0) true b q ↔ q ∉ SB)) →
      ∃ N r, (∀ n, N ≤ n → op 0 n a b = some r) ∧ AllW (polyOps 0) PolyW r ∧ (∀ q ∈ (polyGeo 0).points (all a), keepA q → q ∈ (polyGeo 0).points (all r))
        ∧ (∀ q ∈ (polyGeo 0).points (all b), keepB q → q ∈ (polyGeo 0).points (all r))
        ∧ ∀ q ∈ (polyGeo 0).points (all r), (q ∈ (polyGeo 0).points (all a) ∧ ¬ notA q) ∨ (q ∈ (polyGeo 0).points (all b) ∧ ¬ notB q)) :
    ∃ N r, SmallEps (fun eps => ∀ n, N ≤ n → ∀ dbg, csg3 (op eps) eps n dbg A B = .ok (some r)) ∧ (∀ p ∈ r, PolyW p ∧ last p)
      ∧ (∀ q, OnFacets3 A q → keepA q → ∃ p ∈ r, Hull3 p.verts q) ∧ (∀ q, OnFacets3 B q → keepB q → ∃ p ∈ r, Hull3 p.verts q)
      ∧ ∀ q, (∃ p ∈ r, Hull3 p.verts q) → (OnFacets3 A q ∧ ¬ notA q) ∨ (OnFacets3 B q ∧ ¬ notB q) := by
  obtain ⟨sa, ta, ea, ⟨Na, ba⟩, na, wa, ka, pa, ⟨ma, fa⟩, qa⟩ := anyTree hA
  obtain ⟨sb, tb, eb, ⟨Nb, bb⟩, nb, wb, kb, pb, ⟨mb, fb⟩, qb⟩ := anyTree hB
  obtain ⟨N, t, ht, hw, h1, h2, h3⟩ := hop ta tb wa ka na wb kb nb qa qb
  set M := max N (max Na Nb) with hM
  have m1 : N ≤ M := le_max_left _ _
  have m2 : Na ≤ M := le_trans (le_max_left _ _) (le_max_right _ _)
  have m3 : Nb ≤ M := le_trans (le_max_right _ _) (le_max_right _ _)
  refine ⟨M, all t, ?_, fun p hp => ⟨hw p hp, hlast N ta tb t (build_D (sameWay_pieces A) ma .nil _ (by simp [all]) (facet_sameWay hA.good) ta fa)
    (build_D (sameWay_pieces B) mb .nil _ (by simp [all]) (facet_sameWay hB.good) tb fb) (ht N le_rfl) p hp⟩, ?_, ?_, ?_⟩
  · refine ((build_small M .nil sa).and ((build_small M .nil sb).and (hsmall M ta tb))).mono fun eps ⟨e1, e2, e3⟩ n hn dbg => ?_
    have f1 := build_mono_le hn (e1.trans (ba M m2))
    have f2 := build_mono_le hn (e2.trans (bb M m3))
    have f3 := hmono eps M n hn _ _ _ (e3.trans (ht M m1))
    rw [csg3, ea, Res.ok_bind, eb, Res.ok_bind, f1, f2]
    simp only [Option.bind_some, f3, Option.map_some]; rfl
  · intro q hq hk; exact h1 q ((pa q).2 hq) hk
  · intro q hq hk; exact h2 q ((pb q).2 hq) hk
  · intro q hq
    rcases h3 q hq with ⟨h, h'⟩ | ⟨h, h'⟩
    · exact Or.inl ⟨(pa q).1 h, h'⟩
    · exact Or.inr ⟨(pb q).1 h, h'⟩

end
end Verif.Csg
