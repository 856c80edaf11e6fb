import Verif.Model.Hull3
import Verif.Proofs.Hull3Geom
import Mathlib.Algebra.Order.Field.Basic
import Mathlib.Data.List.Count
/- The steps of `convexHull_3d` are those of `Hull3Geom`. -/
namespace Verif.Hull3
open Verif Verif.Geom Verif.Mesh

section
variable {K : Type} [Field K] [LinearOrder K] [IsStrictOrderedRing K]

/-- What is used of the square root and the constants. -/
structure Num.Ok (c : Num K) : Prop where
  tiny_pos : 0 < c.tiny
  tol_pos : 0 < c.tol
  small : 6 * c.tiny * c.tiny ≤ c.tol
  nonneg : ∀ x, 0 ≤ c.sqrt x
  sq : ∀ x, 0 ≤ x → c.sqrt x * c.sqrt x = x

def Tri.face (t : Tri K) : Face := (t.i, t.j, t.k)

/-- The length a normal is divided by. -/
def mag (c : Num K) (a : V3 K) : K := max c.tiny (c.sqrt (a.x * a.x + a.y * a.y + a.z * a.z))

variable {c : Num K} {ps : List (V3 K)}

omit [IsStrictOrderedRing K] in
theorem mag_pos (hc : c.Ok) (a : V3 K) : 0 < mag c a := lt_of_lt_of_le hc.tiny_pos (le_max_left _ _)

def neg3 (a : V3 K) : V3 K := ⟨-a.x, -a.y, -a.z⟩

omit [IsStrictOrderedRing K] in
theorem mag_neg (a : V3 K) : mag c (neg3 a) = mag c a := by simp [mag, neg3]

/-- The normal is that of the corners. -/
def Std (c : Num K) (ps : List (V3 K)) (t : Tri K) : Prop := t.n = unit c (cross3 (point ps t.j - point ps t.i) (point ps t.k - point ps t.i))

/-- The vector product the height over a facet is measured with. -/
def nrm (ps : List (V3 K)) (f : Face) : V3 K := cross3 (point ps f.2.1 - point ps f.1) (point ps f.2.2 - point ps f.1)

omit [IsStrictOrderedRing K] in
theorem std_mk (i j k : Nat) : Std c ps (mkTri c ps i j k) := rfl

omit [IsStrictOrderedRing K] in
theorem nrm_swap (i j k : Nat) : nrm ps (j, i, k) = neg3 (nrm ps (i, j, k)) := by
  ext <;> simp only [nrm, neg3, cross3, V3.sub_x, V3.sub_y, V3.sub_z] <;> ring

omit [IsStrictOrderedRing K] in
theorem std_flip {t : Tri K} (h : Std c ps t) : Std c ps t.flip := by
  have e := nrm_swap (ps := ps) t.i t.j t.k
  simp only [nrm] at e
  unfold Std at h ⊢
  simp only [Tri.flip]
  rw [e, h, unit, unit]
  change _ = V3.div _ (mag c _)
  rw [mag_neg]
  change V3.mk ((V3.div _ (mag c _)).x * -1) ((V3.div _ (mag c _)).y * -1) ((V3.div _ (mag c _)).z * -1) = _
  ext <;> simp only [V3.div_x, V3.div_y, V3.div_z, neg3] <;> ring

omit [IsStrictOrderedRing K] in
theorem std_dot {t : Tri K} (h : Std c ps t) (x : V3 K) : dot3 (x - point ps t.i) t.n = height (point ps) t.face x / mag c (nrm ps t.face) := by
  rw [h, unit, height, vol6_dot]
  change dot3 _ (V3.div _ (mag c (nrm ps t.face))) = dot3 (nrm ps t.face) (x - point ps t.i) / _
  simp only [dot3, V3.div_x, V3.div_y, V3.div_z, nrm, Tri.face]
  ring

theorem compare_iff (hc : c.Ok) {t : Tri K} (h : Std c ps t) (x : V3 K) : t.compare c ps x = 1 ↔ c.tol * mag c (nrm ps t.face) ≤ height (point ps) t.face x := by
  have hm := mag_pos hc (nrm ps t.face)
  have h1 : t.compare c ps x = 1 ↔ c.tol ≤ dot3 (x - point ps t.i) t.n := by
    unfold Tri.compare
    simp only
    have := hc.tol_pos
    constructor
    · intro e
      split_ifs at e with h1 h2
      · simp at e
      · rw [abs_of_nonneg (not_lt.1 h2)] at h1
        exact not_lt.1 h1
    · intro e
      rw [if_neg (not_lt.2 (e.trans (le_abs_self _))), if_neg (not_lt.2 (this.le.trans e))]
  rw [h1, std_dot h, le_div_iff₀ hm]

omit [IsStrictOrderedRing K] in
theorem nrm_rot (i j k : Nat) : nrm ps (j, k, i) = nrm ps (i, j, k) := by
  ext <;> simp only [nrm, cross3, V3.sub_x, V3.sub_y, V3.sub_z] <;> ring

/-! ### `pick` -/

theorem pick_best {α : Type} [LinearOrder α] (g : Nat → α) {n : Nat} (hn : 0 < n) (beats : Nat → Nat → Bool) (hb : ∀ a b, beats a b = true ↔ g a < g b) :
    pick n beats < n ∧ ∀ i < n, g (pick n beats) ≤ g i := by
  have key : ∀ l : List Nat, ∀ b, (l.foldl (fun b i => if beats i b then i else b) b = b ∨ l.foldl (fun b i => if beats i b then i else b) b ∈ l) ∧
      g (l.foldl (fun b i => if beats i b then i else b) b) ≤ g b ∧ ∀ i ∈ l, g (l.foldl (fun b i => if beats i b then i else b) b) ≤ g i := by
    intro l
    induction l with
    | nil => intro b; exact ⟨Or.inl rfl, le_refl _, by simp⟩
    | cons x l ih =>
      intro b
      rw [List.foldl_cons]
      obtain ⟨h1, h2, h3⟩ := ih (if beats x b then x else b)
      have h4 : g (if beats x b then x else b) ≤ g b ∧ g (if beats x b then x else b) ≤ g x := by
        by_cases h : beats x b = true
        · rw [if_pos h]; exact ⟨((hb _ _).1 h).le, le_refl _⟩
        · rw [if_neg h]; exact ⟨le_refl _, not_lt.1 fun h' => h ((hb _ _).2 h')⟩
      refine ⟨?_, h2.trans h4.1, ?_⟩
      · rcases h1 with h1 | h1
        · by_cases h : beats x b = true
          · rw [if_pos h] at h1 ⊢; exact Or.inr (by rw [h1]; exact List.mem_cons_self)
          · rw [if_neg h] at h1 ⊢; exact Or.inl h1
        · exact Or.inr (List.mem_cons_of_mem _ h1)
      · intro i hi
        rcases List.mem_cons.1 hi with rfl | hi
        · exact h2.trans h4.2
        · exact h3 i hi
  obtain ⟨h1, _, h3⟩ := key (List.range n) 0
  refine ⟨?_, fun i hi => h3 i (List.mem_range.2 hi)⟩
  unfold pick
  rcases h1 with h1 | h1
  · rw [h1]; exact hn
  · exact List.mem_range.1 h1

theorem pick_most {α : Type} [LinearOrder α] (g : Nat → α) {n : Nat} (hn : 0 < n) (beats : Nat → Nat → Bool) (hb : ∀ a b, beats a b = true ↔ g b < g a) :
    pick n beats < n ∧ ∀ i < n, g i ≤ g (pick n beats) :=
  pick_best (α := αᵒᵈ) (fun i => OrderDual.toDual (g i)) hn beats fun a b => by rw [hb]; exact Iff.rfl

/-! ### The loop ends -/

theorem highest_of {dbg : Bool} {facets : List (Tri K)} {is : List Nat} (h : ∃ i ∈ is, ∃ f ∈ facets, 0 < planeDistance (point ps i) (point ps f.i) f.n) :
    ∃ a ∈ is, highestPoint dbg ps facets is = .ok a ∧ ∃ f ∈ facets, (∀ g ∈ facets, ∀ i ∈ is, planeDistance (point ps i) (point ps g.i) g.n ≤ planeDistance (point ps a) (point ps f.i) f.n) := by
  let inner := fun (i : Nat) (s : Option Nat × K) (f : Tri K) => if s.2 < planeDistance (point ps i) (point ps f.i) f.n then (some i, planeDistance (point ps i) (point ps f.i) f.n) else s
  have h1 : ∀ (l : List (Tri K)) (i : Nat) (s : Option Nat × K), (l.foldl (inner i) s = s ∨ ∃ f ∈ l, l.foldl (inner i) s = (some i, planeDistance (point ps i) (point ps f.i) f.n)) ∧
      s.2 ≤ (l.foldl (inner i) s).2 ∧ ∀ f ∈ l, planeDistance (point ps i) (point ps f.i) f.n ≤ (l.foldl (inner i) s).2 := by
    intro l i
    induction l with
    | nil => intro s; exact ⟨Or.inl rfl, le_refl _, by simp⟩
    | cons f l ih =>
      intro s
      rw [List.foldl_cons]
      obtain ⟨e1, e2, e3⟩ := ih (inner i s f)
      by_cases hlt : s.2 < planeDistance (point ps i) (point ps f.i) f.n
      · have he : inner i s f = (some i, planeDistance (point ps i) (point ps f.i) f.n) := if_pos hlt
        rw [he] at e1 e2 e3 ⊢
        refine ⟨Or.inr ?_, hlt.le.trans e2, ?_⟩
        · rcases e1 with e1 | ⟨g, hg, e1⟩
          · exact ⟨f, List.mem_cons_self, e1⟩
          · exact ⟨g, List.mem_cons_of_mem _ hg, e1⟩
        · intro g hg
          rcases List.mem_cons.1 hg with rfl | hg
          · exact e2
          · exact e3 g hg
      · have he : inner i s f = s := if_neg hlt
        rw [he] at e1 e2 e3 ⊢
        refine ⟨?_, e2, ?_⟩
        · rcases e1 with e1 | ⟨g, hg, e1⟩
          · exact Or.inl e1
          · exact Or.inr ⟨g, List.mem_cons_of_mem _ hg, e1⟩
        · intro g hg
          rcases List.mem_cons.1 hg with rfl | hg
          · exact (not_lt.1 hlt).trans e2
          · exact e3 g hg
  let outer := fun (s : Option Nat × K) (i : Nat) => facets.foldl (inner i) s
  have h2 : ∀ (l : List Nat) (s : Option Nat × K), (l.foldl outer s = s ∨ ∃ i ∈ l, ∃ f ∈ facets, l.foldl outer s = (some i, planeDistance (point ps i) (point ps f.i) f.n)) ∧
      s.2 ≤ (l.foldl outer s).2 ∧ ∀ i ∈ l, ∀ f ∈ facets, planeDistance (point ps i) (point ps f.i) f.n ≤ (l.foldl outer s).2 := by
    intro l
    induction l with
    | nil => intro s; exact ⟨Or.inl rfl, le_refl _, by simp⟩
    | cons i l ih =>
      intro s
      rw [List.foldl_cons]
      obtain ⟨e1, e2, e3⟩ := ih (outer s i)
      obtain ⟨d1, d2, d3⟩ := h1 facets i s
      refine ⟨?_, d2.trans e2, ?_⟩
      · rcases e1 with e1 | ⟨i', hi', f, hf, e1⟩
        · rcases d1 with d1 | ⟨f, hf, d1⟩
          · exact Or.inl (e1.trans d1)
          · exact Or.inr ⟨i, List.mem_cons_self, f, hf, e1.trans d1⟩
        · exact Or.inr ⟨i', List.mem_cons_of_mem _ hi', f, hf, e1⟩
      · intro i' hi' f hf
        rcases List.mem_cons.1 hi' with rfl | hi'
        · exact (d3 f hf).trans e2
        · exact e3 i' hi' f hf
  obtain ⟨e1, e2, e3⟩ := h2 is (none, 0)
  obtain ⟨i, hi, f, hf, hpos⟩ := h
  rcases e1 with e1 | ⟨a, ha, g, hg, e1⟩
  · have := e3 i hi f hf
    rw [e1] at this
    exact absurd hpos (not_lt.2 this)
  · refine ⟨a, ha, ?_, g, hg, ?_⟩
    · change (match (is.foldl outer (none, 0)).1 with | some i => Res.ok i | none => if dbg then .abort else .ub) = _
      rw [e1]
    · intro f' hf' i' hi'
      have := e3 i' hi' f' hf'
      rw [e1] at this
      exact this

/-- A point that some facet counts as exterior is above it. -/
theorem exterior_pos (hc : c.Ok) {t : Tri K} {x : V3 K} (h : t.compare c ps x = 1) : 0 < planeDistance x (point ps t.i) t.n := by
  unfold Tri.compare at h
  simp only at h
  unfold planeDistance
  have := hc.tol_pos
  split_ifs at h with h1 h2
  · simp at h
  · rw [abs_of_nonneg (not_lt.1 h2)] at h1
    linarith [not_lt.1 h1]

theorem mem_exterior {facets : List (Tri K)} {is : List Nat} {i : Nat} : i ∈ exteriorPoints c ps facets is ↔ i ∈ is ∧ ∃ f ∈ facets, f.compare c ps (point ps i) = 1 := by
  simp [exteriorPoints]

/-- The apex is on the plane of the facets that are built towards it. -/
theorem apex_on (hc : c.Ok) {a : Nat} {H : List (Nat × Nat)} {t : Tri K} (ht : t ∈ newFacets c ps a H) : t.compare c ps (point ps a) ≠ 1 := by
  obtain ⟨e, _, rfl⟩ := List.mem_map.1 ht
  have hs : ∀ t : Tri K, Std c ps t → t.k = a → t.compare c ps (point ps a) ≠ 1 := by
    intro t hst hk h
    rw [compare_iff hc hst, height, show t.face.2.2 = a from hk, vol6_self3] at h
    exact absurd (mul_pos hc.tol_pos (mag_pos hc _)) (not_lt.2 h)
  simp only
  split
  · exact hs _ (std_flip (std_mk _ _ _)) rfl
  · exact hs _ (std_mk _ _ _) rfl

theorem exterior_shrinks (hc : c.Ok) {facets : List (Tri K)} {is : List Nat} {a : Nat} (ha : a ∈ is) {H : List (Nat × Nat)} :
    (exteriorPoints c ps (facets.filter (fun f => ¬ f.compare c ps (point ps a) = 1) ++ newFacets c ps a H) is).length < is.length := by
  refine List.length_filter_lt_length_iff_exists.2 ⟨a, ha, ?_⟩
  simp only [List.any_eq_true, not_exists, not_and, decide_eq_true_eq, List.mem_append, List.mem_filter]
  intro f hf
  rcases hf with ⟨_, hf⟩ | hf
  · exact hf
  · exact apex_on hc hf

theorem hashEdge_defined (dbg : Bool) (i j : Nat) : hashEdge dbg i j ≠ .ub := by
  unfold hashEdge Res.assert
  by_cases h : i = j
  · subst h; cases dbg <;> simp [Res.pure_eq, Res.bind_eq, Bind.bind, Res.bind]
  · simp [h, Res.pure_eq, Res.bind_eq, Bind.bind, Res.bind]

theorem bind_defined {α β : Type} {x : Res α} {f : α → Res β} (hx : x ≠ .ub) (hf : ∀ a, f a ≠ .ub) : (x >>= f) ≠ .ub := by
  cases x with
  | ok a => exact hf a
  | abort => intro h; cases h
  | ub => exact absurd rfl hx

theorem pure_defined {α : Type} (a : α) : (pure a : Res α) ≠ .ub := by intro h; cases h

theorem assert_defined (dbg : Bool) (P : Prop) [Decidable P] : Res.assert dbg P ≠ .ub := by
  unfold Res.assert
  split <;> intro h <;> cases h

theorem mapM_defined {α β : Type} {f : α → Res β} : ∀ l : List α, (∀ a ∈ l, f a ≠ .ub) → l.mapM f ≠ .ub
  | [], _ => by intro h; cases h
  | a :: l, h => by
    rw [List.mapM_cons]
    refine bind_defined (h a List.mem_cons_self) fun b => bind_defined (mapM_defined l fun x hx => h x (List.mem_cons_of_mem _ hx)) fun bs => pure_defined _

theorem facetEdges_defined (dbg : Bool) (t : Tri K) : facetEdges dbg t ≠ .ub :=
  bind_defined (hashEdge_defined _ _ _) fun _ => bind_defined (hashEdge_defined _ _ _) fun _ => bind_defined (hashEdge_defined _ _ _) fun _ => pure_defined _

theorem cull_defined (dbg : Bool) (facets : List (Tri K)) (a : Nat) : cullVisibleFacets c dbg ps facets a ≠ .ub :=
  bind_defined (mapM_defined _ fun _ _ => facetEdges_defined _ _) fun _ => bind_defined (assert_defined _ _) fun _ => pure_defined _

theorem cull_kept {dbg : Bool} {facets : List (Tri K)} {a : Nat} {r} (h : cullVisibleFacets c dbg ps facets a = .ok r) : r.2 = facets.filter fun f => ¬ f.compare c ps (point ps a) = 1 := by
  unfold cullVisibleFacets at h
  obtain ⟨es, _, h⟩ := Res.bind_eq_ok.1 h
  obtain ⟨_, _, h⟩ := Res.bind_eq_ok.1 h
  cases h
  rfl

theorem hullLoop_defined (hc : c.Ok) (dbg : Bool) : ∀ (fuel : Nat) (facets : List (Tri K)) (is : List Nat), is.length ≤ fuel → (∀ i ∈ is, ∃ f ∈ facets, f.compare c ps (point ps i) = 1) →
    hullLoop c dbg ps fuel facets is ≠ .ub
  | _, _, [], _, _ => by rw [hullLoop]; intro h; cases h
  | 0, _, _ :: _, h, _ => absurd h (by simp)
  | fuel + 1, facets, i :: is, hl, h => by
    rw [hullLoop]
    obtain ⟨f, hf, hi⟩ := h i List.mem_cons_self
    obtain ⟨a, ha, e, _⟩ := highest_of (dbg := dbg) (ps := ps) (facets := facets) (is := i :: is) ⟨i, List.mem_cons_self, f, hf, exterior_pos hc hi⟩
    rw [e]
    change (cullVisibleFacets c dbg ps facets a >>= _) ≠ _
    cases hr : cullVisibleFacets c dbg ps facets a with
    | abort => intro h; cases h
    | ub => exact absurd hr (cull_defined _ _ _)
    | ok r =>
      change (Res.assert dbg (3 ≤ r.1.length) >>= _) ≠ _
      refine bind_defined (assert_defined _ _) fun _ => bind_defined (assert_defined _ _) fun _ => ?_
      refine hullLoop_defined hc dbg fuel _ _ ?_ fun i hi => (mem_exterior.1 hi).2
      rw [cull_kept hr]
      have := exterior_shrinks (ps := ps) hc (facets := facets) ha (H := r.1)
      rw [List.length_cons] at hl
      exact Nat.le_of_lt_succ (lt_of_lt_of_le this hl)

theorem firstEdge_defined (dbg : Bool) : firstEdge dbg ps ≠ .ub := by
  unfold firstEdge
  refine bind_defined (assert_defined _ _) fun _ => bind_defined (assert_defined _ _) fun _ => ?_
  split
  · exact pure_defined _
  · split
    · exact pure_defined _
    · exact bind_defined (assert_defined _ _) fun _ => pure_defined _

/-- Of one point or more the hull is defined: the loop ends and no subscript is wrong. -/
theorem hullFacets_defined (hc : c.Ok) (dbg : Bool) (h : ps ≠ []) : hullFacets c dbg ps ≠ .ub := by
  unfold hullFacets
  refine bind_defined (assert_defined _ _) fun _ => ?_
  rw [if_neg h]
  exact bind_defined (firstEdge_defined _) fun e => hullLoop_defined hc dbg _ _ _ (le_refl _) fun i hi => (mem_exterior.1 hi).2

/-! ### Corners are points -/

def InB (ps : List (V3 K)) (f : Face) : Prop := f.1 < ps.length ∧ f.2.1 < ps.length ∧ f.2.2 < ps.length

theorem hashEdge_inv {dbg : Bool} {i j : Nat} {e : Nat × Nat} (h : hashEdge dbg i j = .ok e) : e = (i, j) ∨ e = (j, i) := by
  unfold hashEdge at h
  obtain ⟨_, _, h⟩ := Res.bind_eq_ok.1 h
  have h := Res.ok.inj h
  rw [← h]
  split
  · exact Or.inl rfl
  · exact Or.inr rfl

theorem mapM_inv {α β : Type} {f : α → Res β} : ∀ {l : List α} {bs : List β}, l.mapM f = .ok bs → ∀ b ∈ bs, ∃ a ∈ l, f a = .ok b
  | [], bs, h, b, hb => by
    rw [List.mapM_nil] at h
    cases h
    cases hb
  | a :: l, bs, h, b, hb => by
    rw [List.mapM_cons] at h
    obtain ⟨x, hx, h⟩ := Res.bind_eq_ok.1 h
    obtain ⟨xs, hxs, h⟩ := Res.bind_eq_ok.1 h
    cases h
    rcases List.mem_cons.1 hb with rfl | hb
    · exact ⟨a, List.mem_cons_self, hx⟩
    · obtain ⟨a', ha', e⟩ := mapM_inv hxs b hb
      exact ⟨a', List.mem_cons_of_mem _ ha', e⟩

theorem cull_inb {dbg : Bool} {facets : List (Tri K)} {a : Nat} {r} (h : cullVisibleFacets c dbg ps facets a = .ok r) (hb : ∀ t ∈ facets, InB ps t.face) : ∀ e ∈ r.1, e.1 < ps.length ∧ e.2 < ps.length := by
  unfold cullVisibleFacets at h
  obtain ⟨es, hes, h⟩ := Res.bind_eq_ok.1 h
  obtain ⟨_, _, h⟩ := Res.bind_eq_ok.1 h
  cases h
  intro e he
  have he := (List.mem_filter.1 he).1
  obtain ⟨x, hx, rfl⟩ := List.mem_map.1 he
  rcases (mem_setAddAll _ _).1 hx with hx | hx
  · cases hx
  obtain ⟨y, hy, rfl⟩ := List.mem_map.1 hx
  obtain ⟨ys, hys, hy⟩ := List.mem_flatten.1 hy
  obtain ⟨t, ht, het⟩ := mapM_inv hes ys hys
  obtain ⟨b1, b2, b3⟩ := hb t (List.mem_filter.1 ht).1
  simp only [Tri.face] at b1 b2 b3
  unfold facetEdges at het
  obtain ⟨e1, he1, het⟩ := Res.bind_eq_ok.1 het
  obtain ⟨e2, he2, het⟩ := Res.bind_eq_ok.1 het
  obtain ⟨e3, he3, het⟩ := Res.bind_eq_ok.1 het
  cases het
  change y.1 < ps.length ∧ y.2 < ps.length
  simp only [List.mem_cons, List.not_mem_nil, or_false] at hy
  rcases hy with rfl | rfl | rfl
  · rcases hashEdge_inv he1 with rfl | rfl <;> exact ⟨by assumption, by assumption⟩
  · rcases hashEdge_inv he2 with rfl | rfl <;> exact ⟨by assumption, by assumption⟩
  · rcases hashEdge_inv he3 with rfl | rfl <;> exact ⟨by assumption, by assumption⟩

theorem highest_mem {dbg : Bool} {facets : List (Tri K)} {is : List Nat} {a : Nat} (h : highestPoint dbg ps facets is = .ok a) : a ∈ is := by
  by_cases hp : ∃ i ∈ is, ∃ f ∈ facets, 0 < planeDistance (point ps i) (point ps f.i) f.n
  · obtain ⟨a', ha', e, _⟩ := highest_of (dbg := dbg) hp
    rw [e] at h
    cases h
    exact ha'
  · exfalso
    have h0 : ∀ i ∈ is, ∀ f ∈ facets, ¬ 0 < planeDistance (point ps i) (point ps f.i) f.n := fun i hi f hf hlt => hp ⟨i, hi, f, hf, hlt⟩
    unfold highestPoint at h
    simp only at h
    have e : is.foldl (fun s i => facets.foldl (fun (s : Option Nat × K) f => if s.2 < planeDistance (point ps i) (point ps f.i) f.n then (some i, planeDistance (point ps i) (point ps f.i) f.n) else s) s) (none, 0) = (none, 0) := by
      clear h hp
      induction is with
      | nil => rfl
      | cons i is ih =>
        rw [List.foldl_cons]
        have e : facets.foldl (fun (s : Option Nat × K) f => if s.2 < planeDistance (point ps i) (point ps f.i) f.n then (some i, planeDistance (point ps i) (point ps f.i) f.n) else s) (none, 0) = (none, 0) := by
          have := h0 i List.mem_cons_self
          clear h0 ih
          induction facets with
          | nil => rfl
          | cons f fs ih =>
            rw [List.foldl_cons, if_neg (this f List.mem_cons_self)]
            exact ih fun g hg => this g (List.mem_cons_of_mem _ hg)
        rw [e]
        exact ih fun j hj => h0 j (List.mem_cons_of_mem _ hj)
    rw [e] at h
    cases dbg <;> cases h

theorem hullLoop_inb {dbg : Bool} : ∀ (fuel : Nat) (facets : List (Tri K)) (is : List Nat) {fs : List (Tri K)}, (∀ t ∈ facets, InB ps t.face) → (∀ i ∈ is, i < ps.length) →
    hullLoop c dbg ps fuel facets is = .ok fs → ∀ t ∈ fs, InB ps t.face
  | _, facets, [], fs, hb, _, h => by
    rw [hullLoop] at h
    cases h
    exact hb
  | 0, _, _ :: _, _, _, _, h => by rw [hullLoop] at h; cases h
  | fuel + 1, facets, i :: is, fs, hb, hi, h => by
    rw [hullLoop] at h
    obtain ⟨a, ha, h⟩ := Res.bind_eq_ok.1 h
    obtain ⟨r, hr, h⟩ := Res.bind_eq_ok.1 h
    obtain ⟨_, _, h⟩ := Res.bind_eq_ok.1 h
    obtain ⟨_, _, h⟩ := Res.bind_eq_ok.1 h
    refine hullLoop_inb fuel _ _ ?_ (fun j hj => hi j (mem_exterior.1 hj).1) h
    intro t ht
    rcases List.mem_append.1 ht with ht | ht
    · rw [cull_kept hr] at ht
      exact hb t (List.mem_filter.1 ht).1
    · obtain ⟨e, he, rfl⟩ := List.mem_map.1 ht
      obtain ⟨h1, h2⟩ := cull_inb hr hb e he
      have h3 := hi a (highest_mem ha)
      simp only
      split
      · exact ⟨h2, h1, h3⟩
      · exact ⟨h1, h2, h3⟩

theorem pick_lt {n : Nat} (hn : 0 < n) (beats : Nat → Nat → Bool) : pick n beats < n := by
  have key : ∀ (l : List Nat) (b : Nat), (∀ i ∈ l, i < n) → b < n → l.foldl (fun b i => if beats i b then i else b) b < n := by
    intro l
    induction l with
    | nil => intro b _ hb; exact hb
    | cons i l ih =>
      intro b hl hb
      rw [List.foldl_cons]
      refine ih _ (fun j hj => hl j (List.mem_cons_of_mem _ hj)) ?_
      split
      · exact hl i List.mem_cons_self
      · exact hb
  exact key _ _ (fun i hi => List.mem_range.1 hi) hn

/-- The corners of the facets are points. -/
theorem hullFacets_inb {dbg : Bool} {fs : List (Tri K)} (h : hullFacets c dbg ps = .ok fs) : ∀ t ∈ fs, InB ps t.face := by
  unfold hullFacets at h
  obtain ⟨_, _, h⟩ := Res.bind_eq_ok.1 h
  split at h
  · cases h
  rename_i hne
  have hn : 0 < ps.length := List.length_pos_of_ne_nil hne
  obtain ⟨e, he, h⟩ := Res.bind_eq_ok.1 h
  have he' : e.1 < ps.length ∧ e.2 < ps.length := by
    unfold firstEdge at he
    obtain ⟨_, _, he⟩ := Res.bind_eq_ok.1 he
    obtain ⟨_, _, he⟩ := Res.bind_eq_ok.1 he
    split at he
    · cases he; exact ⟨pick_lt hn _, pick_lt hn _⟩
    · split at he
      · cases he; exact ⟨pick_lt hn _, pick_lt hn _⟩
      · obtain ⟨_, _, he⟩ := Res.bind_eq_ok.1 he
        cases he; exact ⟨pick_lt hn _, pick_lt hn _⟩
  refine hullLoop_inb _ _ _ ?_ (fun i hi => List.mem_range.1 (mem_exterior.1 hi).1) h
  unfold startFacets
  simp only
  have fin : ∀ (t : Tri K) (a : Nat), InB ps t.face → a < ps.length → ∀ s ∈ [t, mkTri c ps t.j t.i a, mkTri c ps t.i t.k a, mkTri c ps t.k t.j a], InB ps s.face := by
    rintro t a ⟨b1, b2, b3⟩ ha s hs'
    simp only [List.mem_cons, List.not_mem_nil, or_false] at hs'
    rcases hs' with rfl | rfl | rfl | rfl
    · exact ⟨b1, b2, b3⟩
    · exact ⟨b2, b1, ha⟩
    · exact ⟨b1, b3, ha⟩
    · exact ⟨b3, b2, ha⟩
  refine fin _ _ ?_ (pick_lt hn _)
  split
  · exact ⟨he'.2, he'.1, pick_lt hn _⟩
  · exact ⟨he'.1, he'.2, pick_lt hn _⟩

/-! ### A step of the loop -/

/-- Points that are not in the plane of three others are well above or below it. -/
def Gap (c : Num K) (ps : List (V3 K)) : Prop :=
  ∀ i j k l, i < ps.length → j < ps.length → k < ps.length → l < ps.length → vol6 (point ps i) (point ps j) (point ps k) (point ps l) = 0 ∨
    (ps.length : K) * c.tol * mag c (nrm ps (i, j, k)) ≤ |vol6 (point ps i) (point ps j) (point ps k) (point ps l)|

theorem Gap.pos (hc : c.Ok) (hgap : Gap c ps) {f : Face} (hf : InB ps f) {l : Nat} (hl : l < ps.length) (h : 0 < height (point ps) f (point ps l)) :
    (ps.length : K) * (c.tol * mag c (nrm ps f)) ≤ height (point ps) f (point ps l) := by
  rcases hgap f.1 f.2.1 f.2.2 l hf.1 hf.2.1 hf.2.2 hl with h' | h'
  · exact absurd h' h.ne'
  · rw [← mul_assoc]
    exact h'.trans (abs_of_pos h).le

theorem Gap.compare (hc : c.Ok) (hgap : Gap c ps) {t : Tri K} (hs : Std c ps t) (hf : InB ps t.face) {l : Nat} (hl : l < ps.length) :
    t.compare c ps (point ps l) = 1 ↔ 0 < height (point ps) t.face (point ps l) := by
  rw [compare_iff hc hs]
  have hm := mul_pos hc.tol_pos (mag_pos hc (nrm ps t.face))
  constructor
  · exact fun h => hm.trans_le h
  · intro h
    refine le_trans ?_ (hgap.pos hc hf hl h)
    have : (1 : K) ≤ ps.length := by exact_mod_cast Nat.one_le_of_lt hl
    nlinarith

/-- The key of an edge. -/
def srt (e : Nat × Nat) : Nat × Nat := if e.1 < e.2 then e else e.swap

omit [Field K] [LinearOrder K] [IsStrictOrderedRing K] in
theorem hashEdge_ok {dbg : Bool} {i j : Nat} (h : i ≠ j) : hashEdge dbg i j = .ok (srt (i, j)) := by
  unfold hashEdge
  rw [Res.assert_true dbg h]
  rfl

omit [Field K] [LinearOrder K] [IsStrictOrderedRing K] in
theorem facetEdges_ok {dbg : Bool} {t : Tri K} (h : t.i ≠ t.j ∧ t.j ≠ t.k ∧ t.i ≠ t.k) : facetEdges dbg t = .ok ((fedges t.face).map srt) := by
  unfold facetEdges
  rw [hashEdge_ok h.1, hashEdge_ok h.2.1, hashEdge_ok h.2.2.symm]
  rfl

theorem srt_cases (e : Nat × Nat) : srt e = e ∨ srt e = e.swap := by
  unfold srt; split <;> simp

theorem srt_lt {e : Nat × Nat} (h : e.1 ≠ e.2) : (srt e).1 < (srt e).2 := by
  unfold srt
  split
  · assumption
  · simp only [Prod.fst_swap, Prod.snd_swap]; omega

theorem srt_eq {e k : Nat × Nat} (hk : k.1 < k.2) : srt e = k ↔ e = k ∨ e = k.swap := by
  obtain ⟨a, b⟩ := e
  obtain ⟨x, y⟩ := k
  unfold srt
  simp only at hk ⊢
  split <;> simp only [Prod.mk.injEq, Prod.swap_prod_mk] <;> omega

theorem count_srt {E : List (Nat × Nat)} {k : Nat × Nat} (hk : k.1 < k.2) : (E.map srt).count k = E.count k + E.count k.swap := by
  have hne : k ≠ k.swap := by
    intro h
    have := congrArg Prod.fst h
    simp only [Prod.fst_swap] at this
    omega
  induction E with
  | nil => rfl
  | cons e E ih =>
    rw [List.map_cons, List.count_cons, List.count_cons, List.count_cons, ih]
    by_cases h1 : e = k
    · subst h1
      have h2 : srt e = e := by simp [srt, hk]
      rw [h2]
      simp [hne]; omega
    · by_cases h2 : e = k.swap
      · subst h2
        have h3 : srt k.swap = k := (srt_eq hk).2 (Or.inr rfl)
        rw [h3]
        simp [hne.symm]; omega
      · have h3 : srt e ≠ k := fun h => by rcases (srt_eq hk).1 h with h | h <;> contradiction
        simp [h1, h2, h3]

/-- The horizon edges with the direction they have in the visible facets. -/
def orient (E : List (Nat × Nat)) (e : Nat × Nat) : Nat × Nat := if e ∈ E then e else e.swap

/-- The state of the hull. -/
structure Hull (c : Num K) (ps : List (V3 K)) (o : V3 K) (facets : List (Tri K)) : Prop where
  std : ∀ t ∈ facets, Std c ps t
  inb : ∀ t ∈ facets, InB ps t.face
  good : Good (point ps) o (facets.map Tri.face)

theorem visible_map (hc : c.Ok) (hgap : Gap c ps) {o : V3 K} {facets : List (Tri K)} (hh : Hull c ps o facets) {a : Nat} (ha : a < ps.length) :
    (facets.filter fun f => f.compare c ps (point ps a) = 1).map Tri.face = visible (point ps) (facets.map Tri.face) a := by
  unfold visible
  rw [List.filter_map]
  congr 1
  refine List.filter_congr fun t ht => ?_
  simp only [Function.comp, decide_eq_decide]
  exact hgap.compare hc (hh.std t ht) (hh.inb t ht) ha

theorem hidden_map (hc : c.Ok) (hgap : Gap c ps) {o : V3 K} {facets : List (Tri K)} (hh : Hull c ps o facets) {a : Nat} (ha : a < ps.length) :
    (facets.filter fun f => ¬ f.compare c ps (point ps a) = 1).map Tri.face = hidden (point ps) (facets.map Tri.face) a := by
  unfold hidden
  rw [List.filter_map]
  congr 1
  refine List.filter_congr fun t ht => ?_
  simp only [Function.comp, decide_eq_decide]
  exact not_congr (hgap.compare hc (hh.std t ht) (hh.inb t ht) ha)

theorem mapM_facetEdges {dbg : Bool} : ∀ {l : List (Tri K)}, (∀ t ∈ l, t.i ≠ t.j ∧ t.j ≠ t.k ∧ t.i ≠ t.k) → ∃ es, l.mapM (facetEdges dbg) = .ok es ∧ es.flatten = (edgesOf (l.map Tri.face)).map srt
  | [], _ => ⟨[], rfl, rfl⟩
  | t :: l, h => by
    obtain ⟨es, h1, h2⟩ := mapM_facetEdges (dbg := dbg) (l := l) fun x hx => h x (List.mem_cons_of_mem _ hx)
    refine ⟨(fedges t.face).map srt :: es, ?_, ?_⟩
    · rw [List.mapM_cons, facetEdges_ok (h t List.mem_cons_self), h1]; rfl
    · rw [List.flatten_cons, h2, List.map_cons, edgesOf, edgesOf, List.flatMap_cons, List.map_append]

/-- What `cullVisibleFacets` returns. -/
theorem cull_spec (hc : c.Ok) (hgap : Gap c ps) {dbg : Bool} {o : V3 K} {facets : List (Tri K)} (hh : Hull c ps o facets) {a : Nat} (ha : a < ps.length) :
    ∃ H, cullVisibleFacets c dbg ps facets a = .ok (H, facets.filter fun f => ¬ f.compare c ps (point ps a) = 1) ∧
      IsHorizon (point ps) (facets.map Tri.face) a (H.map (orient (edgesOf (visible (point ps) (facets.map Tri.face) a)))) := by
  have hd : ∀ t ∈ facets.filter (fun f => f.compare c ps (point ps a) = 1), t.i ≠ t.j ∧ t.j ≠ t.k ∧ t.i ≠ t.k := by
    intro t ht
    exact hh.good.corners (List.mem_map_of_mem (f := Tri.face) (List.mem_filter.1 ht).1) (Or.inl rfl)
  obtain ⟨es, h1, h2⟩ := mapM_facetEdges (dbg := dbg) hd
  rw [visible_map hc hgap hh ha] at h2
  set E := edgesOf (visible (point ps) (facets.map Tri.face) a) with hE
  have hEn : E.Nodup := (hh.good.split_nodup a).1
  have hne : ∀ e ∈ E, e.1 ≠ e.2 := by
    rintro ⟨u, v⟩ he
    obtain ⟨f, hf, w, hr⟩ := mem_edgesOf.1 he
    exact (hh.good.corners (mem_visible.1 hf).1 hr).1
  set keys := (setAddAll [] (es.flatten.map toLex)).map ofLex with hkeys
  have hkmem : ∀ k, k ∈ keys ↔ ∃ e ∈ E, srt e = k := by
    intro k
    rw [hkeys, List.mem_map]
    constructor
    · rintro ⟨x, hx, rfl⟩
      rcases (mem_setAddAll _ _).1 hx with h | h
      · cases h
      · obtain ⟨y, hy, rfl⟩ := List.mem_map.1 h
        rw [h2] at hy
        obtain ⟨e, he, rfl⟩ := List.mem_map.1 hy
        exact ⟨e, he, rfl⟩
    · rintro ⟨e, he, rfl⟩
      refine ⟨toLex (srt e), (mem_setAddAll _ _).2 (Or.inr (List.mem_map_of_mem ?_)), rfl⟩
      rw [h2]
      exact List.mem_map_of_mem he
  have hknd : keys.Nodup := by
    refine List.Nodup.map (fun _ _ h => h) ?_
    exact (sorted_setAddAll _ _ List.Pairwise.nil).imp fun h => h.ne
  have hklt : ∀ k ∈ keys, k.1 < k.2 := by
    intro k hk
    obtain ⟨e, he, rfl⟩ := (hkmem k).1 hk
    exact srt_lt (hne e he)
  have hcount : ∀ k ∈ keys, es.flatten.count k = (if k ∈ E then 1 else 0) + if k.swap ∈ E then 1 else 0 := by
    intro k hk
    rw [h2, count_srt (hklt k hk), hEn.count, hEn.count]
  have hkE : ∀ k ∈ keys, k ∈ E ∨ k.swap ∈ E := by
    intro k hk
    obtain ⟨e, he, hs⟩ := (hkmem k).1 hk
    rcases srt_cases e with h | h
    · exact Or.inl (by rw [← hs, h]; exact he)
    · exact Or.inr (by rw [← hs, h, Prod.swap_swap]; exact he)
  refine ⟨keys.filter fun e => es.flatten.count e = 1, ?_, ?_, ?_⟩
  · unfold cullVisibleFacets
    rw [h1]
    change (Res.assert dbg (∀ e ∈ keys, es.flatten.count e = 1 ∨ es.flatten.count e = 2) >>= _) = _
    rw [Res.assert_true dbg]
    · rfl
    · intro k hk
      rw [hcount k hk]
      rcases hkE k hk with h | h
      · rw [if_pos h]; split <;> simp
      · rw [if_pos h]; split <;> simp
  · refine List.Nodup.map_on ?_ (hknd.filter _)
    intro k hk k' hk' h
    have l1 := hklt k (List.mem_filter.1 hk).1
    have l2 := hklt k' (List.mem_filter.1 hk').1
    obtain ⟨x, y⟩ := k
    obtain ⟨x', y'⟩ := k'
    unfold orient at h
    simp only [Prod.swap_prod_mk] at h l1 l2
    split_ifs at h <;> simp only [Prod.mk.injEq] at h ⊢ <;> omega
  · intro u v
    rw [List.mem_map]
    constructor
    · rintro ⟨k, hk, he⟩
      obtain ⟨hk, h1'⟩ := List.mem_filter.1 hk
      rw [decide_eq_true_eq, hcount k hk] at h1'
      unfold orient at he
      split_ifs at he with hm
      · subst he
        rw [if_pos hm] at h1'
        refine ⟨hm, fun h => ?_⟩
        rw [if_pos (show Prod.swap (u, v) ∈ E from h)] at h1'
        omega
      · rw [if_neg hm] at h1'
        have hm' : k.swap ∈ E := by
          by_contra h
          rw [if_neg h] at h1'
          omega
        rw [he] at hm'
        refine ⟨hm', fun h => hm ?_⟩
        have : k = (v, u) := by rw [← Prod.swap_swap k, he]; rfl
        rw [this]; exact h
    · rintro ⟨hu, hv⟩
      rw [← hE] at hu hv
      rcases srt_cases (u, v) with h | h
      · have hk : (u, v) ∈ keys := (hkmem _).2 ⟨(u, v), hu, h⟩
        refine ⟨(u, v), List.mem_filter.2 ⟨hk, ?_⟩, by simp [orient, hu]⟩
        rw [decide_eq_true_eq, hcount _ hk, if_pos hu, if_neg (show Prod.swap (u, v) ∉ E from hv)]
      · have hk : (v, u) ∈ keys := (hkmem _).2 ⟨(u, v), hu, h⟩
        refine ⟨(v, u), List.mem_filter.2 ⟨hk, ?_⟩, by simp [orient, hv]⟩
        rw [decide_eq_true_eq, hcount _ hk, if_neg hv, if_pos (show Prod.swap (v, u) ∈ E from hu)]

theorem dot_fold (l : V3 K) : ∀ (H : List (Nat × Nat)) (s : V3 K), dot3 l (H.foldl (fun s e => s + point ps e.1 + point ps e.2) s) = dot3 l s + (H.map fun e => dot3 l (point ps e.1) + dot3 l (point ps e.2)).sum
  | [], s => by simp
  | e :: H, s => by
    rw [List.foldl_cons, dot_fold l H, List.map_cons, List.sum_cons]
    simp only [dot3, V3.add_x, V3.add_y, V3.add_z]; ring

/-- The height of the test point is the mean of those of the corners of the horizon. -/
theorem height_test (f : Face) {H : List (Nat × Nat)} (hH : H ≠ []) :
    2 * (H.length : K) * height (point ps) f ((H.foldl (fun s e => s + point ps e.1 + point ps e.2) 0).div (2 * (H.length : K))) =
      (H.map fun e => height (point ps) f (point ps e.1) + height (point ps) f (point ps e.2)).sum := by
  have hn : (2 * (H.length : K)) ≠ 0 := by
    have : (0 : K) < H.length := by exact_mod_cast List.length_pos_of_ne_nil hH
    positivity
  set N := cross3 (point ps f.2.1 - point ps f.1) (point ps f.2.2 - point ps f.1) with hN
  have e1 : ∀ x, height (point ps) f x = dot3 N x - dot3 N (point ps f.1) := by
    intro x
    rw [height, vol6_dot, ← hN]
    simp only [dot3, V3.sub_x, V3.sub_y, V3.sub_z]; ring
  have e2 : ∀ (x : V3 K) (t : K), dot3 N (x.div t) = dot3 N x / t := by
    intro x t
    simp only [dot3, V3.div_x, V3.div_y, V3.div_z]; ring
  have e3 : (H.map fun e => height (point ps) f (point ps e.1) + height (point ps) f (point ps e.2)).sum =
      (H.map fun e => dot3 N (point ps e.1) + dot3 N (point ps e.2)).sum - 2 * (H.length : K) * dot3 N (point ps f.1) := by
    clear hH hn
    induction H with
    | nil => simp
    | cons e H ih =>
      simp only [List.map_cons, List.sum_cons, List.length_cons, Nat.cast_add, Nat.cast_one]
      rw [ih, e1, e1]; ring
  rw [e3, e1, e2, dot_fold]
  have : dot3 N (0 : V3 K) = 0 := by simp [dot3]
  rw [this, zero_add, mul_sub, mul_div_cancel₀ _ hn]

theorem sum_nonpos_of : ∀ {l : List K}, (∀ x ∈ l, x ≤ 0) → l.sum ≤ 0
  | [], _ => by simp
  | a :: l, h => by
    rw [List.sum_cons]
    exact add_nonpos (h a List.mem_cons_self) (sum_nonpos_of fun x hx => h x (List.mem_cons_of_mem _ hx))

theorem newFacets_spec (hc : c.Ok) (hgap : Gap c ps) {o : V3 K} {facets : List (Tri K)} (hh : Hull c ps o facets) {a : Nat} (ha : a < ps.length)
    (hv : ∃ f ∈ facets.map Tri.face, 0 < height (point ps) f (point ps a)) {H : List (Nat × Nat)} {E : List (Nat × Nat)}
    (hs : IsHorizon (point ps) (facets.map Tri.face) a (H.map (orient E))) :
    (newFacets c ps a H).map Tri.face = (H.map (orient E)).map (fun e => (e.1, e.2, a)) ∧ (∀ t ∈ newFacets c ps a H, Std c ps t ∧ InB ps t.face) := by
  have hg := hh.good
  have hused : ∀ {u v}, (u, v) ∈ H.map (orient E) → (u, v) ∈ edgesOf (facets.map Tri.face) := fun {u v} h => (split_mem (p := point ps) (a := a)).2 (Or.inl ((hs.mem u v).1 h).1)
  have hlt : ∀ {w}, Used (facets.map Tri.face) w → w < ps.length := by
    rintro w ⟨f, hf, h⟩
    obtain ⟨t, ht, rfl⟩ := List.mem_map.1 hf
    obtain ⟨h1, h2, h3⟩ := hh.inb t ht
    rcases h with rfl | rfl | rfl
    · exact h1
    · exact h2
    · exact h3
  have hlow : ∀ {w}, Used (facets.map Tri.face) w → ∀ f ∈ facets.map Tri.face, height (point ps) f (point ps w) ≤ 0 := fun {w} hw f hf => hg.below f hf w hw
  have hne : H ≠ [] := by
    have := hs.ne_nil hg hv
    intro h
    exact this (by rw [h]; rfl)
  have hcorner : ∀ e ∈ H, e.1 < ps.length ∧ e.2 < ps.length := by
    intro e he
    have h := hused (u := (orient E e).1) (v := (orient E e).2) (List.mem_map_of_mem he)
    have h1 := hlt (used_iff.2 ⟨_, h⟩)
    have h2 := hlt (used_iff'.2 ⟨_, h⟩)
    unfold orient at h1 h2
    split_ifs at h1 h2
    · exact ⟨h1, h2⟩
    · exact ⟨h2, h1⟩
  have hlen : H.length ≤ ps.length := by
    have nd : ((H.map (orient E)).map Prod.fst).Nodup := by
      refine List.Nodup.map_on ?_ hs.nodup
      rintro ⟨u, v⟩ h1 ⟨u', v'⟩ h2 h
      simp only at h
      subst h
      rw [Horizon.unique_out hg (hs.horizon hg h1) (hs.horizon hg h2)]
    have hsub : (H.map (orient E)).map Prod.fst ⊆ List.range ps.length := by
      intro u hu
      obtain ⟨⟨u', v⟩, he, rfl⟩ := List.mem_map.1 hu
      exact List.mem_range.2 (hlt (used_iff.2 ⟨v, hused he⟩))
    have := (nd.subperm hsub).length_le
    rwa [List.length_map, List.length_map, List.length_range] at this
  have hpos : (0 : K) < H.length := by exact_mod_cast List.length_pos_of_ne_nil hne
  -- the sum over the horizon does not depend on the direction of its edges
  have hsum : ∀ g : Nat → K, (H.map fun e => g e.1 + g e.2).sum = ((H.map (orient E)).map fun e => g e.1 + g e.2).sum := by
    intro g
    rw [List.map_map]
    congr 1
    refine List.map_congr_left fun e _ => ?_
    simp only [Function.comp, orient]
    split
    · rfl
    · simp only [Prod.fst_swap, Prod.snd_swap]; ring
  have key : ∀ e ∈ H, (mkTri c ps e.1 e.2 a).compare c ps ((H.foldl (fun s e => s + point ps e.1 + point ps e.2) 0).div (2 * (H.length : K))) = 1 ↔ e ∉ E := by
    intro e he
    rw [compare_iff hc (std_mk _ _ _)]
    change c.tol * mag c (nrm ps (e.1, e.2, a)) ≤ height (point ps) (e.1, e.2, a) _ ↔ _
    have hm := mul_pos hc.tol_pos (mag_pos hc (nrm ps (e.1, e.2, a)))
    have ht := height_test (ps := ps) (e.1, e.2, a) hne
    set X := height (point ps) (e.1, e.2, a) ((H.foldl (fun s e => s + point ps e.1 + point ps e.2) 0).div (2 * (H.length : K))) with hX
    have hin := List.mem_map_of_mem (f := orient E) he
    constructor
    · intro h hE
      have ho : orient E e = (e.1, e.2) := by simp [orient, hE]
      rw [ho] at hin
      obtain ⟨_, hcone⟩ := (hs.horizon hg hin).cone hg
      have : (H.map fun e' => height (point ps) (e.1, e.2, a) (point ps e'.1) + height (point ps) (e.1, e.2, a) (point ps e'.2)).sum ≤ 0 := by
        rw [hsum fun w => height (point ps) (e.1, e.2, a) (point ps w)]
        refine sum_nonpos_of ?_
        intro x hx
        obtain ⟨⟨u, v⟩, huv, rfl⟩ := List.mem_map.1 hx
        have h1 := hcone _ (hlow (used_iff.2 ⟨_, hused huv⟩))
        have h2 := hcone _ (hlow (used_iff'.2 ⟨_, hused huv⟩))
        exact add_nonpos h1 h2
      rw [← ht] at this
      have : 0 < 2 * (H.length : K) * X := by have := hm.trans_le h; positivity
      linarith
    · intro hE
      have ho : orient E e = (e.2, e.1) := by simp [orient, hE]; rfl
      rw [ho] at hin
      obtain ⟨_, hcone⟩ := (hs.horizon hg hin).cone hg
      have hval : ∀ x, height (point ps) (e.1, e.2, a) x = -vol6 (point ps e.2) (point ps e.1) (point ps a) x := fun x => vol6_swap _ _ _ _
      have h0 : ∀ w, Used (facets.map Tri.face) w → 0 ≤ height (point ps) (e.1, e.2, a) (point ps w) := by
        intro w hw
        rw [hval]
        exact neg_nonneg.2 (hcone _ (hlow hw))
      obtain ⟨w, x, hwx, hstrict⟩ := hs.strict hg hv hin
      obtain ⟨y, hyw⟩ := (hs.next hg w).2 ⟨x, hwx⟩
      have hw := used_iff.2 ⟨x, hused hwx⟩
      have hbig := hgap.pos hc (f := (e.1, e.2, a)) ⟨(hcorner e he).1, (hcorner e he).2, ha⟩ (hlt hw) (by rw [hval]; exact neg_pos.2 hstrict)
      have hS : 2 * height (point ps) (e.1, e.2, a) (point ps w) ≤ (H.map fun e' => height (point ps) (e.1, e.2, a) (point ps e'.1) + height (point ps) (e.1, e.2, a) (point ps e'.2)).sum := by
        rw [hsum fun w => height (point ps) (e.1, e.2, a) (point ps w), List.sum_map_add]
        have b1 : height (point ps) (e.1, e.2, a) (point ps w) ≤ ((H.map (orient E)).map fun e' => height (point ps) (e.1, e.2, a) (point ps e'.1)).sum := by
          refine List.single_le_sum ?_ _ (List.mem_map.2 ⟨_, hwx, rfl⟩)
          intro z hz
          obtain ⟨⟨u, v⟩, huv, rfl⟩ := List.mem_map.1 hz
          exact h0 _ (used_iff.2 ⟨_, hused huv⟩)
        have b2 : height (point ps) (e.1, e.2, a) (point ps w) ≤ ((H.map (orient E)).map fun e' => height (point ps) (e.1, e.2, a) (point ps e'.2)).sum := by
          refine List.single_le_sum ?_ _ (List.mem_map.2 ⟨_, hyw, rfl⟩)
          intro z hz
          obtain ⟨⟨u, v⟩, huv, rfl⟩ := List.mem_map.1 hz
          exact h0 _ (used_iff'.2 ⟨_, hused huv⟩)
        linarith
      rw [← ht] at hS
      have hl : (H.length : K) ≤ ps.length := by exact_mod_cast hlen
      have h1 : (H.length : K) * (c.tol * mag c (nrm ps (e.1, e.2, a))) ≤ (H.length : K) * X := by
        have := mul_le_mul_of_nonneg_right hl hm.le
        linarith
      exact le_of_mul_le_mul_left h1 hpos
  constructor
  · unfold newFacets
    simp only [List.map_map]
    refine List.map_congr_left fun e he => ?_
    simp only [Function.comp]
    by_cases hE : e ∈ E
    · rw [if_neg fun h => (key e he).1 h hE]; simp [orient, hE, Tri.face, mkTri]
    · rw [if_pos ((key e he).2 hE)]; simp [orient, hE, Tri.face, mkTri, Tri.flip]
  · intro t ht
    obtain ⟨e, he, rfl⟩ := List.mem_map.1 ht
    obtain ⟨h1, h2⟩ := hcorner e he
    simp only
    split
    · exact ⟨std_flip (std_mk _ _ _), h2, h1, ha⟩
    · exact ⟨std_mk _ _ _, h1, h2, ha⟩

theorem horizon_three {p : Nat → V3 K} {o : V3 K} {fs : List Face} (hg : Good p o fs) {a : Nat} (hv : ∃ f ∈ fs, 0 < height p f (p a)) {hs : List (Nat × Nat)} (hh : IsHorizon p fs a hs) : 3 ≤ hs.length := by
  obtain ⟨⟨u, v⟩, huv⟩ := List.exists_mem_of_ne_nil _ (hh.ne_nil hg hv)
  obtain ⟨w, hvw⟩ := (hh.next hg v).1 ⟨u, huv⟩
  obtain ⟨x, hwx⟩ := (hh.next hg w).1 ⟨v, hvw⟩
  have hne : ∀ {x y}, (x, y) ∈ hs → x ≠ y := by
    intro x y h
    obtain ⟨f, hf, z, hr⟩ := mem_edgesOf.1 ((hh.mem x y).1 h).1
    exact (hg.corners (mem_visible.1 hf).1 hr).1
  have huw : u ≠ w := by
    rintro rfl
    exact ((hh.mem u v).1 huv).2 ((hh.mem v u).1 hvw).1
  have hsub : [(u, v), (v, w), (w, x)] ⊆ hs := by
    intro e he
    simp only [List.mem_cons, List.not_mem_nil, or_false] at he
    rcases he with rfl | rfl | rfl <;> assumption
  have hnd : [(u, v), (v, w), (w, x)].Nodup := by
    have h1 := hne huv
    have h2 := hne hvw
    simp only [List.nodup_cons, List.mem_cons, Prod.mk.injEq, List.not_mem_nil, or_false, not_or, not_and, List.nodup_nil, not_false_eq_true, and_true]
    exact ⟨⟨fun h => absurd h h1, fun h => absurd h huw⟩, fun h => absurd h h2⟩
  exact (hnd.subperm hsub).length_le

/-- The loop ends with a closed convex surface that all points are below. -/
theorem hullLoop_spec (hc : c.Ok) (hgap : Gap c ps) (dbg : Bool) (o : V3 K) : ∀ (fuel : Nat) (facets : List (Tri K)) (is : List Nat), is.length ≤ fuel → Hull c ps o facets →
    (∀ i ∈ is, i < ps.length ∧ ∃ f ∈ facets, f.compare c ps (point ps i) = 1) → (∀ i < ps.length, i ∉ is → ∀ t ∈ facets, height (point ps) t.face (point ps i) ≤ 0) → facets ≠ [] →
    ∃ fs, hullLoop c dbg ps fuel facets is = .ok fs ∧ Hull c ps o fs ∧ (∀ i < ps.length, ∀ t ∈ fs, height (point ps) t.face (point ps i) ≤ 0) ∧ fs ≠ []
  | _, facets, [], _, hh, _, hout, h0 => ⟨facets, by rw [hullLoop], hh, fun i hi => hout i hi (by simp), h0⟩
  | 0, _, _ :: _, h, _, _, _, _ => absurd h (by simp)
  | fuel + 1, facets, i :: is, hl, hh, hin, hout, h0 => by
    rw [hullLoop]
    obtain ⟨_, f, hf, hi⟩ := hin i List.mem_cons_self
    obtain ⟨a, ha, e, _⟩ := highest_of (dbg := dbg) (ps := ps) (facets := facets) (is := i :: is) ⟨i, List.mem_cons_self, f, hf, exterior_pos hc hi⟩
    obtain ⟨haN, fa, hfa, hca⟩ := hin a ha
    have hv : ∃ f ∈ facets.map Tri.face, 0 < height (point ps) f (point ps a) :=
      ⟨fa.face, List.mem_map_of_mem hfa, (hgap.compare hc (hh.std fa hfa) (hh.inb fa hfa) haN).1 hca⟩
    obtain ⟨H, hcull, hs⟩ := cull_spec hc hgap (dbg := dbg) hh haN
    obtain ⟨hn1, hn2⟩ := newFacets_spec hc hgap hh haN hv hs
    have h3 := horizon_three hh.good hv hs
    rw [List.length_map] at h3
    obtain ⟨hgood, hgrow⟩ := hh.good.step hv hs
    have hface : (facets.filter (fun f => ¬ f.compare c ps (point ps a) = 1) ++ newFacets c ps a H).map Tri.face = stepFaces (point ps) (facets.map Tri.face) a (H.map (orient (edgesOf (visible (point ps) (facets.map Tri.face) a)))) := by
      rw [List.map_append, hidden_map hc hgap hh haN, hn1]; rfl
    have hshrink := exterior_shrinks (ps := ps) hc (facets := facets) ha (H := H)
    have hh' : Hull c ps o (facets.filter (fun f => ¬ f.compare c ps (point ps a) = 1) ++ newFacets c ps a H) := by
      refine ⟨fun t ht => ?_, fun t ht => ?_, by rw [hface]; exact hgood⟩
      · rcases List.mem_append.1 ht with ht | ht
        · exact hh.std t (List.mem_filter.1 ht).1
        · exact (hn2 t ht).1
      · rcases List.mem_append.1 ht with ht | ht
        · exact hh.inb t (List.mem_filter.1 ht).1
        · exact (hn2 t ht).2
    obtain ⟨fs, hr, hrest⟩ := hullLoop_spec hc hgap dbg o fuel (facets.filter (fun f => ¬ f.compare c ps (point ps a) = 1) ++ newFacets c ps a H)
      (exteriorPoints c ps (facets.filter (fun f => ¬ f.compare c ps (point ps a) = 1) ++ newFacets c ps a H) (i :: is))
      (Nat.le_of_lt_succ (lt_of_lt_of_le hshrink hl)) hh' (fun j hj => ⟨(hin j (mem_exterior.1 hj).1).1, (mem_exterior.1 hj).2⟩)
      (by
        intro j hj hjn t ht
        by_cases hji : j ∈ i :: is
        · by_contra hpos
          exact hjn (mem_exterior.2 ⟨hji, t, ht, (hgap.compare hc (hh'.std t ht) (hh'.inb t ht) hj).2 (not_le.1 hpos)⟩)
        · refine hgrow _ (fun f hf => ?_) t.face (by rw [← hface]; exact List.mem_map_of_mem ht)
          obtain ⟨t', ht', rfl⟩ := List.mem_map.1 hf
          exact hout j hj hji t' ht')
      (by
        intro h
        have h' := congrArg List.length (List.append_eq_nil_iff.1 h).2
        rw [newFacets, List.length_map, List.length_nil] at h'
        omega)
    refine ⟨fs, ?_, hrest⟩
    rw [e]
    change (cullVisibleFacets c dbg ps facets a >>= _) = _
    rw [hcull]
    change (Res.assert dbg (3 ≤ H.length) >>= _) = _
    rw [Res.assert_true dbg h3]
    change (Res.assert dbg ((exteriorPoints c ps (facets.filter (fun f => ¬ f.compare c ps (point ps a) = 1) ++ newFacets c ps a H) (i :: is)).length < (i :: is).length) >>= _) = _
    rw [Res.assert_true dbg hshrink]
    exact hr

/-! ### The start -/

/-- The points are not in one plane. -/
def Solid (ps : List (V3 K)) : Prop := ∃ i j k l, i < ps.length ∧ j < ps.length ∧ k < ps.length ∧ l < ps.length ∧ vol6 (point ps i) (point ps j) (point ps k) (point ps l) ≠ 0

omit [LinearOrder K] [IsStrictOrderedRing K] in
theorem Solid.four (h : Solid ps) : 4 ≤ ps.length := by
  obtain ⟨i, j, k, l, hi, hj, hk, hl, hv⟩ := h
  have hij : i ≠ j := by rintro rfl; exact hv (vol6_deg1 _ _ _)
  have hjk : j ≠ k := by rintro rfl; exact hv (vol6_deg2 _ _ _)
  have hik : i ≠ k := by rintro rfl; exact hv (vol6_deg3 _ _ _)
  have hil : i ≠ l := by rintro rfl; exact hv (vol6_self1 _ _ _)
  have hjl : j ≠ l := by rintro rfl; exact hv (vol6_self2 _ _ _)
  have hkl : k ≠ l := by rintro rfl; exact hv (vol6_self3 _ _ _)
  have hnd : [i, j, k, l].Nodup := by simp [hij, hjk, hik, hil, hjl, hkl]
  have hsub : [i, j, k, l] ⊆ List.range ps.length := by
    intro x hx
    simp only [List.mem_cons, List.not_mem_nil, or_false] at hx
    rw [List.mem_range]
    rcases hx with rfl | rfl | rfl | rfl <;> assumption
  have := (hnd.subperm hsub).length_le
  rwa [List.length_range] at this

/-- A linear function that is constant on the points is zero. -/
theorem Solid.spread (h : Solid ps) (g : V3 K → K) (hg : g = V3.x ∨ g = V3.y ∨ g = V3.z) {i j : Nat} (hi : i < ps.length) (hmin : ∀ m < ps.length, g (point ps i) ≤ g (point ps m)) (hmax : ∀ m < ps.length, g (point ps m) ≤ g (point ps j)) :
    g (point ps i) < g (point ps j) := by
  by_contra hn
  obtain ⟨a, b, c, d, ha, hb, hc, hd, hv⟩ := h
  have e : ∀ m < ps.length, g (point ps m) = g (point ps i) := fun m hm => le_antisymm ((hmax m hm).trans (not_lt.1 hn)) (hmin m hm)
  have ea := e a ha
  have eb := e b hb
  have ec := e c hc
  have ed := e d hd
  apply hv
  unfold vol6
  rcases hg with rfl | rfl | rfl <;> rw [ea, eb, ec, ed] <;> ring

theorem abs_det_le {E : K} (hE : 0 ≤ E) {a b d : V3 K} (ha : |a.x| ≤ E ∧ |a.y| ≤ E ∧ |a.z| ≤ E) (hb : |b.x| ≤ E ∧ |b.y| ≤ E ∧ |b.z| ≤ E) (hd : |d.x| ≤ E ∧ |d.y| ≤ E ∧ |d.z| ≤ E) :
    |dot3 (cross3 a b) d| ≤ 6 * (E * E * E) := by
  have t : ∀ {x y z : K}, |x| ≤ E → |y| ≤ E → |z| ≤ E → |x * y * z| ≤ E * E * E := by
    intro x y z hx hy hz
    rw [abs_mul, abs_mul]
    exact mul_le_mul (mul_le_mul hx hy (abs_nonneg _) hE) hz (abs_nonneg _) (mul_nonneg hE hE)
  have h1 := abs_le.1 (t ha.2.1 hb.2.2 hd.1)
  have h2 := abs_le.1 (t ha.2.2 hb.2.1 hd.1)
  have h3 := abs_le.1 (t ha.2.2 hb.1 hd.2.1)
  have h4 := abs_le.1 (t ha.1 hb.2.2 hd.2.1)
  have h5 := abs_le.1 (t ha.1 hb.2.1 hd.2.2)
  have h6 := abs_le.1 (t ha.2.1 hb.1 hd.2.2)
  rw [abs_le]
  simp only [dot3, cross3]
  constructor <;> linarith [h1.1, h1.2, h2.1, h2.2, h3.1, h3.2, h4.1, h4.2, h5.1, h5.2, h6.1, h6.2]

/-- The length of the first edge. -/
theorem firstEdge_spec (hc : c.Ok) (hgap : Gap c ps) (hs : Solid ps) (dbg : Bool) :
    ∃ i j, firstEdge dbg ps = .ok (i, j) ∧ i < ps.length ∧ j < ps.length ∧ c.tiny ≤ c.sqrt (dot3 (point ps j - point ps i) (point ps j - point ps i)) := by
  have hn : 0 < ps.length := by have := hs.four; omega
  obtain ⟨x1, x2⟩ := pick_best (fun i => (point ps i).x) hn (fun a b => (point ps a).x < (point ps b).x) (by simp)
  obtain ⟨x3, x4⟩ := pick_most (fun i => (point ps i).x) hn (fun a b => (point ps b).x < (point ps a).x) (by simp)
  obtain ⟨y1, y2⟩ := pick_best (fun i => (point ps i).y) hn (fun a b => (point ps a).y < (point ps b).y) (by simp)
  obtain ⟨y3, y4⟩ := pick_most (fun i => (point ps i).y) hn (fun a b => (point ps b).y < (point ps a).y) (by simp)
  obtain ⟨z1, z2⟩ := pick_best (fun i => (point ps i).z) hn (fun a b => (point ps a).z < (point ps b).z) (by simp)
  obtain ⟨z3, z4⟩ := pick_most (fun i => (point ps i).z) hn (fun a b => (point ps b).z < (point ps a).z) (by simp)
  unfold firstEdge
  simp only
  set ix := pick ps.length fun a b => decide ((point ps a).x < (point ps b).x)
  set jx := pick ps.length fun a b => decide ((point ps b).x < (point ps a).x)
  set iy := pick ps.length fun a b => decide ((point ps a).y < (point ps b).y)
  set jy := pick ps.length fun a b => decide ((point ps b).y < (point ps a).y)
  set iz := pick ps.length fun a b => decide ((point ps a).z < (point ps b).z)
  set jz := pick ps.length fun a b => decide ((point ps b).z < (point ps a).z)
  have sx := hs.spread V3.x (Or.inl rfl) x1 x2 x4
  have sy := hs.spread V3.y (Or.inr (Or.inl rfl)) y1 y2 y4
  have sz := hs.spread V3.z (Or.inr (Or.inr rfl)) z1 z2 z4
  have nx : ix ≠ jx := by intro h; rw [h] at sx; exact lt_irrefl _ sx
  have ny : iy ≠ jy := by intro h; rw [h] at sy; exact lt_irrefl _ sy
  have nz : iz ≠ jz := by intro h; rw [h] at sz; exact lt_irrefl _ sz
  rw [Res.assert_true dbg ⟨nx, ny, nz⟩]
  change ∃ i j, (Res.assert dbg _ >>= _) = _ ∧ _
  set bx := dot3 (point ps jx - point ps ix) (point ps jx - point ps ix) with hbx
  set by' := dot3 (point ps jy - point ps iy) (point ps jy - point ps iy) with hby
  set bz := dot3 (point ps jz - point ps iz) (point ps jz - point ps iz) with hbz
  have qx : ((point ps jx).x - (point ps ix).x) * ((point ps jx).x - (point ps ix).x) ≤ bx := by
    rw [hbx]; simp only [dot3, V3.sub_x, V3.sub_y, V3.sub_z]
    nlinarith [mul_self_nonneg ((point ps jx).y - (point ps ix).y), mul_self_nonneg ((point ps jx).z - (point ps ix).z)]
  have qy : ((point ps jy).y - (point ps iy).y) * ((point ps jy).y - (point ps iy).y) ≤ by' := by
    rw [hby]; simp only [dot3, V3.sub_x, V3.sub_y, V3.sub_z]
    nlinarith [mul_self_nonneg ((point ps jy).x - (point ps iy).x), mul_self_nonneg ((point ps jy).z - (point ps iy).z)]
  have qz : ((point ps jz).z - (point ps iz).z) * ((point ps jz).z - (point ps iz).z) ≤ bz := by
    rw [hbz]; simp only [dot3, V3.sub_x, V3.sub_y, V3.sub_z]
    nlinarith [mul_self_nonneg ((point ps jz).x - (point ps iz).x), mul_self_nonneg ((point ps jz).y - (point ps iz).y)]
  have px : 0 < bx := (mul_self_pos.2 (sub_pos.2 sx).ne').trans_le qx
  have py : 0 < by' := (mul_self_pos.2 (sub_pos.2 sy).ne').trans_le qy
  have pz : 0 < bz := (mul_self_pos.2 (sub_pos.2 sz).ne').trans_le qz
  rw [Res.assert_true dbg ⟨px, py, pz⟩]
  -- a length that bounds all three extents is not tiny
  have key : ∀ B : K, bx ≤ B → by' ≤ B → bz ≤ B → c.tiny ≤ c.sqrt B := by
    intro B h1 h2 h3
    have hB : 0 ≤ B := px.le.trans h1
    by_contra hlt
    have hlt := not_le.1 hlt
    set E := c.sqrt B with hE
    have hE0 : 0 ≤ E := hc.nonneg B
    have hEE : E * E = B := hc.sq B hB
    have bound : ∀ {d t : K}, 0 ≤ t → t * t ≤ B → |d| ≤ t → |d| ≤ E := by
      intro d t h0 ht hd
      refine hd.trans ?_
      by_contra h
      have h := not_le.1 h
      have := mul_self_lt_mul_self hE0 h
      linarith
    obtain ⟨m1, m2, m3, m4, h_1, h_2, h_3, h_4, hv⟩ := hs
    have comp : ∀ m < ps.length, |(point ps m - point ps m1).x| ≤ E ∧ |(point ps m - point ps m1).y| ≤ E ∧ |(point ps m - point ps m1).z| ≤ E := by
      intro m hm
      refine ⟨bound (sub_pos.2 sx).le (qx.trans h1) ?_, bound (sub_pos.2 sy).le (qy.trans h2) ?_, bound (sub_pos.2 sz).le (qz.trans h3) ?_⟩
      · have a1 := x2 m hm; have a2 := x4 m hm; have a3 := x2 m1 h_1; have a4 := x4 m1 h_1
        rw [V3.sub_x, abs_le]; constructor <;> linarith
      · have a1 := y2 m hm; have a2 := y4 m hm; have a3 := y2 m1 h_1; have a4 := y4 m1 h_1
        rw [V3.sub_y, abs_le]; constructor <;> linarith
      · have a1 := z2 m hm; have a2 := z4 m hm; have a3 := z2 m1 h_1; have a4 := z4 m1 h_1
        rw [V3.sub_z, abs_le]; constructor <;> linarith
    have hdet := abs_det_le hE0 (comp m2 h_2) (comp m3 h_3) (comp m4 h_4)
    rw [← vol6_dot] at hdet
    have hg := (hgap m1 m2 m3 m4 h_1 h_2 h_3 h_4).resolve_left hv
    have hN : (1 : K) ≤ ps.length := by exact_mod_cast hn
    have hmag : c.tiny ≤ mag c (nrm ps (m1, m2, m3)) := le_max_left _ _
    have t1 : c.tol * c.tiny ≤ (ps.length : K) * c.tol * mag c (nrm ps (m1, m2, m3)) := by
      have a1 : c.tol ≤ (ps.length : K) * c.tol := le_mul_of_one_le_left hc.tol_pos.le hN
      exact mul_le_mul a1 hmag hc.tiny_pos.le (hc.tol_pos.le.trans a1)
    have t2 : E * E * E < c.tiny * c.tiny * c.tiny := by
      have b1 : E * E < c.tiny * c.tiny := mul_self_lt_mul_self hE0 hlt
      have b2 : E * E * E ≤ E * E * c.tiny := mul_le_mul_of_nonneg_left hlt.le (mul_nonneg hE0 hE0)
      have b3 : E * E * c.tiny < c.tiny * c.tiny * c.tiny := mul_lt_mul_of_pos_right b1 hc.tiny_pos
      linarith
    have t3 : 6 * c.tiny * c.tiny * c.tiny ≤ c.tol * c.tiny := mul_le_mul_of_nonneg_right hc.small hc.tiny_pos.le
    linarith
  change ∃ i j, (if max by' bz ≤ bx then (pure (ix, jx) : Res (Nat × Nat)) else if bz ≤ by' then pure (iy, jy) else _) = _ ∧ _
  by_cases h1 : max by' bz ≤ bx
  · rw [if_pos h1]
    exact ⟨ix, jx, rfl, x1, x3, key _ (le_refl _) ((le_max_left _ _).trans h1) ((le_max_right _ _).trans h1)⟩
  · rw [if_neg h1]
    by_cases h2 : bz ≤ by'
    · rw [if_pos h2]
      have h3 : bx ≤ by' := by
        rw [max_eq_left h2] at h1
        exact (not_le.1 h1).le
      exact ⟨iy, jy, rfl, y1, y3, key _ h3 (le_refl _) h2⟩
    · rw [if_neg h2]
      have h2 := (not_le.1 h2).le
      have h3 : bx ≤ bz := by
        rw [max_eq_right h2] at h1
        exact (not_le.1 h1).le
      refine ⟨iz, jz, ?_, z1, z3, key _ h3 h2 (le_refl _)⟩
      rw [Res.assert_true dbg (max_le h3 h2)]
      rfl

theorem parallel_zero {d s t y : V3 K} (hd : dot3 d d ≠ 0) (hs : cross3 s d = 0) (ht : cross3 t d = 0) : dot3 (cross3 s t) y = 0 := by
  have sx : s.y * d.z - s.z * d.y = 0 := congrArg V3.x hs
  have sy : s.z * d.x - s.x * d.z = 0 := congrArg V3.y hs
  have sz : s.x * d.y - s.y * d.x = 0 := congrArg V3.z hs
  have tx : t.y * d.z - t.z * d.y = 0 := congrArg V3.x ht
  have ty : t.z * d.x - t.x * d.z = 0 := congrArg V3.y ht
  have tz : t.x * d.y - t.y * d.x = 0 := congrArg V3.z ht
  set S := s.x * d.x + s.y * d.y + s.z * d.z with hS
  set T := t.x * d.x + t.y * d.y + t.z * d.z with hT
  have s1 : dot3 d d * s.x = S * d.x := by rw [hS, dot3]; linear_combination d.y * sz - d.z * sy
  have s2 : dot3 d d * s.y = S * d.y := by rw [hS, dot3]; linear_combination d.z * sx - d.x * sz
  have s3 : dot3 d d * s.z = S * d.z := by rw [hS, dot3]; linear_combination d.x * sy - d.y * sx
  have t1 : dot3 d d * t.x = T * d.x := by rw [hT, dot3]; linear_combination d.y * tz - d.z * ty
  have t2 : dot3 d d * t.y = T * d.y := by rw [hT, dot3]; linear_combination d.z * tx - d.x * tz
  have t3 : dot3 d d * t.z = T * d.z := by rw [hT, dot3]; linear_combination d.x * ty - d.y * tx
  have key : (dot3 d d * dot3 d d) * dot3 (cross3 s t) y = 0 := by
    have : (dot3 d d * dot3 d d) * dot3 (cross3 s t) y = ((dot3 d d * s.y) * (dot3 d d * t.z) - (dot3 d d * s.z) * (dot3 d d * t.y)) * y.x
        + ((dot3 d d * s.z) * (dot3 d d * t.x) - (dot3 d d * s.x) * (dot3 d d * t.z)) * y.y + ((dot3 d d * s.x) * (dot3 d d * t.y) - (dot3 d d * s.y) * (dot3 d d * t.x)) * y.z := by
      simp only [dot3, cross3]; ring
    rw [this, s1, s2, s3, t1, t2, t3]; ring
  exact (mul_eq_zero.1 key).resolve_left (mul_ne_zero hd hd)

/-- Points on one line are in one plane. -/
theorem Solid.off_line (hs : Solid ps) {i : Nat} {d : V3 K} (hd : dot3 d d ≠ 0) : ∃ m < ps.length, cross3 (point ps m - point ps i) d ≠ 0 := by
  by_contra hn
  have h : ∀ m < ps.length, cross3 (point ps m - point ps i) d = 0 := fun m hm => by_contra fun h => hn ⟨m, hm, h⟩
  obtain ⟨a, b, c, e, ha, hb, hc, he, hv⟩ := hs
  have sub : ∀ m < ps.length, cross3 (point ps m - point ps a) d = 0 := by
    intro m hm
    have h1 := h m hm
    have h2 := h a ha
    have : cross3 (point ps m - point ps a) d = cross3 (point ps m - point ps i) d - cross3 (point ps a - point ps i) d := by
      ext <;> simp only [cross3, V3.sub_x, V3.sub_y, V3.sub_z] <;> ring
    rw [this, h1, h2]
    ext <;> simp
  apply hv
  rw [vol6_dot]
  exact parallel_zero hd (sub b hb) (sub c hc)

theorem dot_self_nonneg (v : V3 K) : 0 ≤ dot3 v v := by
  unfold dot3
  nlinarith [mul_self_nonneg v.x, mul_self_nonneg v.y, mul_self_nonneg v.z]

theorem dot_self_zero {v : V3 K} (h : dot3 v v = 0) : v = 0 := by
  unfold dot3 at h
  have h1 := mul_self_nonneg v.x
  have h2 := mul_self_nonneg v.y
  have h3 := mul_self_nonneg v.z
  ext
  · exact mul_self_eq_zero.1 (by linarith)
  · exact mul_self_eq_zero.1 (by linarith)
  · exact mul_self_eq_zero.1 (by linarith)

/-- Points of one plane. -/
theorem Solid.off_plane (hs : Solid ps) {i j k : Nat} (hd : nrm ps (i, j, k) ≠ 0) : ∃ m < ps.length, vol6 (point ps i) (point ps j) (point ps k) (point ps m) ≠ 0 := by
  by_contra hn
  have h : ∀ m < ps.length, vol6 (point ps i) (point ps j) (point ps k) (point ps m) = 0 := fun m hm => by_contra fun h => hn ⟨m, hm, h⟩
  obtain ⟨a, b, c, e, ha, hb, hc, he, hv⟩ := hs
  refine hv (coplanar4 (o := point ps i + nrm ps (i, j, k)) ?_ (h a ha) (h b hb) (h c hc) (h e he))
  have : vol6 (point ps i) (point ps j) (point ps k) (point ps i + nrm ps (i, j, k)) = dot3 (nrm ps (i, j, k)) (nrm ps (i, j, k)) := by
    rw [vol6_dot]
    change dot3 (nrm ps (i, j, k)) _ = _
    simp only [dot3, V3.sub_x, V3.sub_y, V3.sub_z, V3.add_x, V3.add_y, V3.add_z]; ring
  rw [this]
  exact fun h => hd (dot_self_zero h)

theorem startFacets_spec (hc : c.Ok) (hgap : Gap c ps) (hs : Solid ps) {i j : Nat} (hi : i < ps.length) (hj : j < ps.length)
    (hlen : c.tiny ≤ c.sqrt (dot3 (point ps j - point ps i) (point ps j - point ps i))) : ∃ o, Hull c ps o (startFacets c ps (i, j)) := by
  have hn : 0 < ps.length := by omega
  set d := point ps j - point ps i with hd
  have hdd : 0 ≤ dot3 d d := dot_self_nonneg d
  have hE := hc.sq _ hdd
  set E := c.sqrt (dot3 d d) with hEdef
  have hE0 : 0 < E := hc.tiny_pos.trans_le hlen
  have hddpos : dot3 d d ≠ 0 := by rw [← hE]; positivity
  have hdir : unit c d = d.div E := by
    unfold unit
    rw [max_eq_right (show c.tiny ≤ c.sqrt (d.x * d.x + d.y * d.y + d.z * d.z) from hlen)]
    rfl
  -- the distance from the line
  have hdist : ∀ m, lineDistance c (point ps m) (point ps i) (unit c d) * lineDistance c (point ps m) (point ps i) (unit c d) * dot3 d d = dot3 (cross3 (point ps m - point ps i) d) (cross3 (point ps m - point ps i) d) := by
    intro m
    set w := point ps m - point ps i with hw
    have e1 : (dot3 w w - dot3 w (unit c d) * dot3 w (unit c d)) * dot3 d d = dot3 (cross3 w d) (cross3 w d) := by
      rw [hdir]
      have : dot3 w (d.div E) = dot3 w d / E := by simp only [dot3, V3.div_x, V3.div_y, V3.div_z]; ring
      rw [this]
      have h2 : (dot3 w w - dot3 w d / E * (dot3 w d / E)) * dot3 d d = dot3 w w * dot3 d d - dot3 w d * dot3 w d := by
        rw [← hE]; field_simp
      rw [h2]
      simp only [dot3, cross3]; ring
    have e2 : 0 ≤ dot3 w w - dot3 w (unit c d) * dot3 w (unit c d) := by
      have hpos : 0 < dot3 d d := lt_of_le_of_ne hdd (Ne.symm hddpos)
      by_contra h
      have := mul_neg_of_neg_of_pos (not_le.1 h) hpos
      rw [e1] at this
      exact absurd (dot_self_nonneg _) (not_le.2 this)
    unfold lineDistance
    simp only
    rw [← hw, abs_of_nonneg e2, hc.sq _ e2, e1]
  unfold startFacets
  simp only
  rw [← hd]
  obtain ⟨k1, k2⟩ := pick_most (fun m => lineDistance c (point ps m) (point ps i) (unit c d)) hn
    (fun a b => lineDistance c (point ps b) (point ps i) (unit c d) < lineDistance c (point ps a) (point ps i) (unit c d)) (by simp)
  set k := pick ps.length fun a b => decide (lineDistance c (point ps b) (point ps i) (unit c d) < lineDistance c (point ps a) (point ps i) (unit c d)) with hk
  have hcross : nrm ps (i, j, k) ≠ 0 := by
    intro h0
    obtain ⟨m, hm, hne⟩ := hs.off_line (i := i) hddpos
    have h1 : cross3 (point ps k - point ps i) d = 0 := by
      have hx := congrArg V3.x h0
      have hy := congrArg V3.y h0
      have hz := congrArg V3.z h0
      simp only [nrm, ← hd] at hx hy hz
      simp only [cross3, V3.zero_x, V3.zero_y, V3.zero_z] at hx hy hz
      ext
      · simp only [cross3, V3.zero_x]; linarith
      · simp only [cross3, V3.zero_y]; linarith
      · simp only [cross3, V3.zero_z]; linarith
    have h2 := hdist k
    rw [h1] at h2
    have h3 : lineDistance c (point ps k) (point ps i) (unit c d) = 0 := by
      have : dot3 (0 : V3 K) 0 = 0 := by simp [dot3]
      rw [this] at h2
      exact mul_self_eq_zero.1 ((mul_eq_zero.1 h2).resolve_right hddpos)
    have h4 := k2 m hm
    have h4 : lineDistance c (point ps m) (point ps i) (unit c d) ≤ 0 := by rw [← h3]; exact h4
    have h5 : lineDistance c (point ps m) (point ps i) (unit c d) = 0 := le_antisymm h4 (hc.nonneg _)
    have h6 := hdist m
    rw [h5, zero_mul, zero_mul] at h6
    exact hne (dot_self_zero h6.symm)
  have hplane : ∀ m, planeDistance (point ps m) (point ps i) (mkTri c ps i j k).n = vol6 (point ps i) (point ps j) (point ps k) (point ps m) / mag c (nrm ps (i, j, k)) :=
    fun m => std_dot (t := mkTri c ps i j k) (std_mk i j k) (point ps m)
  obtain ⟨a1, a2⟩ := pick_most (fun m => |planeDistance (point ps m) (point ps (mkTri c ps i j k).i) (mkTri c ps i j k).n|) hn
    (fun a b => |planeDistance (point ps b) (point ps (mkTri c ps i j k).i) (mkTri c ps i j k).n| < |planeDistance (point ps a) (point ps (mkTri c ps i j k).i) (mkTri c ps i j k).n|) (by simp)
  set a := pick ps.length fun a b => decide (|planeDistance (point ps b) (point ps (mkTri c ps i j k).i) (mkTri c ps i j k).n| < |planeDistance (point ps a) (point ps (mkTri c ps i j k).i) (mkTri c ps i j k).n|) with ha
  have hm := mag_pos hc (nrm ps (i, j, k))
  have hvol : vol6 (point ps i) (point ps j) (point ps k) (point ps a) ≠ 0 := by
    intro h0
    obtain ⟨m, hmN, hne⟩ := hs.off_plane hcross
    have h1 := a2 m hmN
    change |planeDistance (point ps m) (point ps i) _| ≤ |planeDistance (point ps a) (point ps i) _| at h1
    rw [hplane, hplane, h0, zero_div, abs_zero] at h1
    have h2 := abs_eq_zero.1 (le_antisymm h1 (abs_nonneg _))
    exact hne ((div_eq_zero_iff.1 h2).resolve_right hm.ne')
  have hcmp := hgap.compare hc (t := mkTri c ps i j k) (std_mk i j k) ⟨hi, hj, k1⟩ a1
  have fin : ∀ t : Tri K, Std c ps t → InB ps t.face → height (point ps) t.face (point ps a) < 0 →
      ∃ o, Hull c ps o [t, mkTri c ps t.j t.i a, mkTri c ps t.i t.k a, mkTri c ps t.k t.j a] := by
    intro t h1 h2 h3
    refine ⟨_, ?_, ?_, Good.tetra h3⟩
    · intro s hs'
      simp only [List.mem_cons, List.not_mem_nil, or_false] at hs'
      rcases hs' with rfl | rfl | rfl | rfl
      · exact h1
      · exact std_mk _ _ _
      · exact std_mk _ _ _
      · exact std_mk _ _ _
    · obtain ⟨b1, b2, b3⟩ := h2
      intro s hs'
      simp only [List.mem_cons, List.not_mem_nil, or_false] at hs'
      rcases hs' with rfl | rfl | rfl | rfl
      · exact ⟨b1, b2, b3⟩
      · exact ⟨b2, b1, a1⟩
      · exact ⟨b1, b3, a1⟩
      · exact ⟨b3, b2, a1⟩
  by_cases hpos : 0 < vol6 (point ps i) (point ps j) (point ps k) (point ps a)
  · rw [if_pos (hcmp.2 hpos)]
    refine fin _ (std_flip (std_mk _ _ _)) ⟨hj, hi, k1⟩ ?_
    change vol6 (point ps j) (point ps i) (point ps k) (point ps a) < 0
    rw [vol6_swap]
    exact neg_neg_of_pos hpos
  · rw [if_neg fun h => hpos (hcmp.1 h)]
    exact fin _ (std_mk _ _ _) ⟨hi, hj, k1⟩ (lt_of_le_of_ne (not_lt.1 hpos) hvol)

/-- The facets of points that are not in one plane and well apart from each other's planes. -/
theorem hullFacets_spec (hc : c.Ok) (hgap : Gap c ps) (hs : Solid ps) (dbg : Bool) :
    ∃ o fs, hullFacets c dbg ps = .ok fs ∧ Hull c ps o fs ∧ (∀ i < ps.length, ∀ t ∈ fs, height (point ps) t.face (point ps i) ≤ 0) ∧ fs ≠ [] := by
  obtain ⟨i, j, he, hi, hj, hlen⟩ := firstEdge_spec hc hgap hs dbg
  obtain ⟨o, hh⟩ := startFacets_spec hc hgap hs hi hj hlen
  obtain ⟨fs, hr, hrest⟩ := hullLoop_spec hc hgap dbg o (exteriorPoints c ps (startFacets c ps (i, j)) (List.range ps.length)).length (startFacets c ps (i, j))
    (exteriorPoints c ps (startFacets c ps (i, j)) (List.range ps.length)) (le_refl _) hh
    (fun m hm => ⟨List.mem_range.1 (mem_exterior.1 hm).1, (mem_exterior.1 hm).2⟩)
    (by
      intro m hm hn t ht
      by_contra hpos
      exact hn (mem_exterior.2 ⟨List.mem_range.2 hm, t, ht, (hgap.compare hc (hh.std t ht) (hh.inb t ht) hm).2 (not_le.1 hpos)⟩))
    (by unfold startFacets; simp)
  refine ⟨o, fs, ?_, hrest⟩
  unfold hullFacets
  rw [Res.assert_true dbg hs.four]
  change (if ps = [] then _ else _) = _
  rw [if_neg (by intro h; have := hs.four; rw [h] at this; simp at this), he]
  exact hr
end
end Verif.Hull3
