import Verif.Proofs.Solid
import Verif.Spec.SolidAny
/-
The tree that is built from the facets of a solid of any shape decides which points are inside.
-/
namespace Verif.Csg
open Verif Verif.Geom Verif.Mesh

variable {K : Type} [Field K] [LinearOrder K] [IsStrictOrderedRing K]

/-! ### Inner points -/

theorem inner_exists : ∀ {l : List (V3 K)}, l ≠ [] → ∃ c, Inner l c
  | [], h => absurd rfl h
  | [a], _ => ⟨a, .pt (by simp), fun n w _ h => by simpa using h⟩
  | a :: b :: l, _ => by
    obtain ⟨c, h1, h2⟩ := inner_exists (l := b :: l) (by simp)
    have hc : Hull3 (a :: b :: l) c := hull_mono (fun v hv => .pt (List.mem_cons_of_mem _ hv)) h1
    refine ⟨lerp3 a c (1 / 2), .seg (.pt (by simp)) hc (by norm_num) (by norm_num), fun n w h3 h4 => ?_⟩
    have ha := h3 a (by simp)
    have hc' : w ≤ dot3 n c := hull_ge (fun v hv => h3 v (List.mem_cons_of_mem _ hv)) h1
    rw [dot_lerp]
    obtain ⟨v, hv, hw⟩ := h4
    rcases List.mem_cons.1 hv with rfl | hv
    · linarith
    · have := h2 n w (fun v hv => h3 v (List.mem_cons_of_mem _ hv)) ⟨v, hv, hw⟩
      linarith

omit [LinearOrder K] [IsStrictOrderedRing K] in
theorem dot_sub' (n a b : V3 K) : dot3 n (a - b) = dot3 n a - dot3 n b := by simp only [dot3, V3.sub_x, V3.sub_y, V3.sub_z]; ring
omit [LinearOrder K] [IsStrictOrderedRing K] in
theorem dot_add' (n a b : V3 K) : dot3 n (a + b) = dot3 n a + dot3 n b := by simp only [dot3, V3.add_x, V3.add_y, V3.add_z]; ring
omit [LinearOrder K] [IsStrictOrderedRing K] in
theorem dot_scale' (k : K) (n v : V3 K) : dot3 n (V3.scale k v) = k * dot3 n v := by
  simp only [dot3, V3.scale_x, V3.scale_y, V3.scale_z]; ring

/-- A plane through three points of another plane that are not on a line is that plane. -/
theorem same_plane {n m a b c v : V3 K} {w u : K} (ht : 0 < turn n a b c) (ha : dot3 n a = w) (hb : dot3 n b = w) (hc : dot3 n c = w) (hv : dot3 n v = w)
    (ma : dot3 m a = u) (mb : dot3 m b = u) (mc : dot3 m c = u) : dot3 m v = u := by
  obtain ⟨k, k0, hk, -⟩ := plane_of_scale ht ha hb hc
  have hk' : cross3 (b - a) (c - a) = V3.scale k n := hk
  have hnn := dot_self_pos (ne_zero_of_turn ht)
  have e1 : dot3 m (b - a) = 0 := by rw [dot_sub', mb, ma, sub_self]
  have e2 : dot3 m (c - a) = 0 := by rw [dot_sub', mc, ma, sub_self]
  have e3 : dot3 n (v - a) = 0 := by rw [dot_sub', hv, ha, sub_self]
  have e4 : dot3 m (v - a) = dot3 m v - u := by rw [dot_sub', ma]
  -- the normals are parallel
  have hx := congrArg V3.x hk'
  have hy := congrArg V3.y hk'
  have hz := congrArg V3.z hk'
  rw [← sub_eq_zero, ← e4]
  set p := b - a
  set q := c - a
  set d := v - a
  have key : k * dot3 n n * dot3 m d = 0 := by
    simp only [cross3, V3.scale_x, V3.scale_y, V3.scale_z] at hx hy hz
    simp only [dot3] at e1 e2 e3 ⊢
    have c1 : m.y * (k * n.z) - m.z * (k * n.y) = 0 := by rw [← hy, ← hz]; linear_combination p.x * e2 - q.x * e1
    have c2 : m.z * (k * n.x) - m.x * (k * n.z) = 0 := by rw [← hx, ← hz]; linear_combination p.y * e2 - q.y * e1
    have c3 : m.x * (k * n.y) - m.y * (k * n.x) = 0 := by rw [← hx, ← hy]; linear_combination p.z * e2 - q.z * e1
    linear_combination k * (m.x * n.x + m.y * n.y + m.z * n.z) * e3 + (d.y * n.z - d.z * n.y) * c1 + (d.z * n.x - d.x * n.z) * c2 + (d.x * n.y - d.y * n.x) * c3
  rcases mul_eq_zero.1 key with h | h
  · exact absurd h (mul_pos k0 hnn).ne'
  · exact h

/-- `x` is part of the polygon with corners `vs` and normal `n`, and faces the same way. -/
structure PartOf (n : V3 K) (vs : List (V3 K)) (x : Poly K) : Prop where
  wf : PolyW x
  planar : ∃ w, ∀ v ∈ vs, dot3 n v = w
  sub : ∀ v ∈ x.verts, Hull3 vs v
  dir : ∃ k, 0 < k ∧ x.plane.normal = V3.scale k n

theorem PartOf.three {n : V3 K} {vs : List (V3 K)} {x : Poly K} (h : PartOf n vs x) :
    ∃ a ∈ x.verts, ∃ b ∈ x.verts, ∃ c ∈ x.verts, 0 < turn n a b c := by
  obtain ⟨k, k0, hk⟩ := h.dir
  have h3 := h.wf.three
  have hc := h.wf.convex 0 1 2 (by omega) (by omega) (by omega)
  rw [hk, turn_scale] at hc
  have g : ∀ i, i < 3 → x.verts.getD i 0 ∈ x.verts := by
    intro i hi
    have : i < x.verts.length := by omega
    simp [this]
  exact ⟨_, g 0 (by omega), _, g 1 (by omega), _, g 2 (by omega), (mul_pos_iff_of_pos_left k0).1 hc⟩

/-- What is on one side of a plane and not in it has no part in it. -/
theorem PartOf.strict {n : V3 K} {vs : List (V3 K)} {x : Poly K} (h : PartOf n vs x) {m : V3 K} {u : K} (h1 : ∀ v ∈ vs, u ≤ dot3 m v) (h2 : ∃ v ∈ vs, u < dot3 m v) :
    (∀ v ∈ x.verts, u ≤ dot3 m v) ∧ ∃ v ∈ x.verts, u < dot3 m v := by
  have hx : ∀ v ∈ x.verts, u ≤ dot3 m v := fun v hv => hull_ge h1 (h.sub v hv)
  refine ⟨hx, ?_⟩
  by_contra hn
  push Not at hn
  have he : ∀ v ∈ x.verts, dot3 m v = u := fun v hv => le_antisymm (hn v hv) (hx v hv)
  obtain ⟨a, ha, b, hb, c, hc, ht⟩ := h.three
  obtain ⟨w, hw⟩ := h.planar
  have hwx : ∀ v ∈ x.verts, dot3 n v = w := fun v hv =>
    le_antisymm (hull_le (fun v hv => (hw v hv).le) (h.sub v hv)) (hull_ge (fun v hv => (hw v hv).ge) (h.sub v hv))
  obtain ⟨v, hv, hlt⟩ := h2
  exact absurd (same_plane ht (hwx a ha) (hwx b hb) (hwx c hc) (hw v hv) (he a ha) (he b hb) (he c hc)) hlt.ne'

theorem PartOf.inner {n : V3 K} {vs : List (V3 K)} {x : Poly K} (h : PartOf n vs x) {c : V3 K} (hc : Inner x.verts c) : Inner vs c :=
  ⟨hull_mono h.sub hc.1, fun m u h1 h2 => hc.2 m u (h.strict h1 h2).1 (h.strict h1 h2).2⟩

theorem PartOf.self {x : Poly K} (h : PolyW x) : PartOf x.plane.normal x.verts x :=
  ⟨h, ⟨_, h.planar⟩, fun _ hv => .pt hv, 1, one_pos, by ext <;> simp [V3.scale]⟩

theorem PartOf.trans {n : V3 K} {vs : List (V3 K)} {x y : Poly K} (h : PartOf n vs x) (hy : PartOf x.plane.normal x.verts y) : PartOf n vs y := by
  obtain ⟨k, k0, hk⟩ := h.dir
  obtain ⟨j, j0, hj⟩ := hy.dir
  refine ⟨hy.wf, h.planar, fun v hv => hull_mono h.sub (hy.sub v hv), j * k, mul_pos j0 k0, ?_⟩
  rw [hj, hk]; ext <;> simp [V3.scale, mul_assoc]

/-- A polygon made from a list of vertices in the plane of another one. -/
theorem partOf_of {q : Poly K} (hq : PolyW q) {l : List (V3 K)} (h3 : 3 ≤ l.length) (hs : ∀ v ∈ l, Hull3 q.verts v)
    (hc : ∀ i j k, i < j → j < k → k < l.length → 0 < turn q.plane.normal (l.getD i 0) (l.getD j 0) (l.getD k 0)) : PartOf q.plane.normal q.verts (Poly.of l) := by
  have hp : ∀ v ∈ l, dot3 q.plane.normal v = q.plane.w := fun v hv =>
    le_antisymm (hull_le (fun v hv => (hq.planar v hv).le) (hs v hv)) (hull_ge (fun v hv => (hq.planar v hv).ge) (hs v hv))
  refine ⟨polyW_of h3 hp hc, ⟨_, hq.planar⟩, hs, ?_⟩
  match l, h3 with
  | a :: b :: c :: l, _ =>
    obtain ⟨k, k0, e1, e2⟩ := plane_of_scale (hc 0 1 2 (by omega) (by omega) (by simp)) (hp _ (by simp)) (hp _ (by simp)) (hp _ (by simp)) (a := a) (b := b) (c := c)
    exact ⟨k, k0, e1⟩

/-- What splitting makes with tolerance zero: what is put in the plane is in the plane; what is put in front is part of the polygon, in front of the plane, and not all in the plane;
and the same behind. -/
theorem split_exact (p : Plane K) {q : Poly K} (hq : PolyW q) :
    (∀ x ∈ (splitPoly 0 p q).coFront ++ (splitPoly 0 p q).coBack, x = q ∧ ∀ v ∈ x.verts, dot3 p.normal v = p.w)
    ∧ (∀ x ∈ (splitPoly 0 p q).front, PartOf q.plane.normal q.verts x ∧ (∀ v ∈ x.verts, p.w ≤ dot3 p.normal v) ∧ ∃ v ∈ x.verts, p.w < dot3 p.normal v)
    ∧ (∀ x ∈ (splitPoly 0 p q).back, PartOf q.plane.normal q.verts x ∧ (∀ v ∈ x.verts, dot3 p.normal v ≤ p.w) ∧ ∃ v ∈ x.verts, dot3 p.normal v < p.w) := by
  have h0 : (0 : K) ≤ 0 := le_rfl
  rcases splitPoly_cases h0 p q with ⟨h | h, h1⟩ | ⟨h, h1, v, hv, h2⟩ | ⟨h, h1, v, hv, h2⟩ | ⟨i, j, hi, hj, ci, cj, h⟩
  · simp only [h, List.append_nil, List.mem_singleton, List.not_mem_nil, false_imp_iff, implies_true, and_true]
    rintro x rfl
    exact ⟨rfl, fun v hv => by linarith [(h1 v hv).1, (h1 v hv).2]⟩
  · simp only [h, List.nil_append, List.mem_singleton, List.not_mem_nil, false_imp_iff, implies_true, and_true]
    rintro x rfl
    exact ⟨rfl, fun v hv => by linarith [(h1 v hv).1, (h1 v hv).2]⟩
  · simp only [h, List.nil_append, List.mem_singleton, List.not_mem_nil, false_imp_iff, implies_true, and_true, true_and]
    rintro x rfl
    exact ⟨PartOf.self hq, fun v hv => by linarith [h1 v hv], v, hv, by linarith⟩
  · simp only [h, List.nil_append, List.mem_singleton, List.not_mem_nil, false_imp_iff, implies_true, true_and]
    rintro x rfl
    exact ⟨PartOf.self hq, fun v hv => by linarith [h1 v hv], v, hv, by linarith⟩
  · have hv : q.verts ≠ [] := by have := hq.three; intro h; simp [h] at this
    have h3 := front_three h0 hi hj ci cj
    have per : vcls 0 p q.verts q.verts.length = vcls 0 p q.verts 0 := by rw [← vcls_mod, Nat.mod_self]
    simp only [h, List.nil_append, List.mem_singleton, List.not_mem_nil, false_imp_iff, implies_true, true_and]
    have hs : ∀ keep : Nat → Bool, ∀ v ∈ (sel q.verts.length keep (vcut 0 p q.verts)).map (sidePt (cyc q.verts)), Hull3 q.verts v :=
      fun keep v hv => sel_sub h0 hq.three (.pt hv)
    have hm : ∀ keep : Nat → Bool, ∀ i < q.verts.length, keep i = true → cyc q.verts i ∈ (sel q.verts.length keep (vcut 0 p q.verts)).map (sidePt (cyc q.verts)) := by
      intro keep i hi hk
      exact List.mem_map.2 ⟨(i, 0), mem_sel.2 ⟨hi, Or.inl ⟨hk, rfl⟩⟩, by rw [sidePt, lerp3_zero]⟩
    constructor
    · rintro x rfl
      refine ⟨partOf_of hq (by simpa using h3.1) (hs _) (sel_turns hq (fun i s h => (front_cut h0 p q.verts i s h).1) (by rw [per])), ?_, cyc q.verts i, hm _ i hi (by simp [ci]), ?_⟩
      · intro v hv
        obtain ⟨a, ha, rfl⟩ := List.mem_map.1 hv
        linarith [front_height h0 ha]
      · rcases vcls_cases h0 p q.verts i with ⟨h', -⟩ | ⟨-, h'⟩ | ⟨h', -⟩
        · omega
        · linarith
        · omega
    · rintro x rfl
      refine ⟨partOf_of hq (by simpa using h3.2) (hs _) (sel_turns hq (fun i s h => (front_cut h0 p q.verts i s h).2) (by rw [per])), ?_, cyc q.verts j, hm _ j hj (by simp [cj]), ?_⟩
      · intro v hv
        obtain ⟨a, ha, rfl⟩ := List.mem_map.1 hv
        linarith [back_height h0 ha]
      · rcases vcls_cases h0 p q.verts j with ⟨-, h'⟩ | ⟨h', -⟩ | ⟨h', -⟩
        · linarith
        · omega
        · omega

/-! ### Deciding -/

/-- A polygon with the solid behind it. -/
def Faces (S : Set (V3 K)) (x : Poly K) : Prop :=
  ∀ c, Inner x.verts c → ∃ d, 0 < d ∧ ∀ t, 0 < t → t < d → c - V3.scale t x.plane.normal ∈ S ∧ c + V3.scale t x.plane.normal ∉ S

theorem Faces.part {S : Set (V3 K)} {n : V3 K} {vs : List (V3 K)} {x : Poly K} (hp : PartOf n vs x)
    (h : ∀ c, Inner vs c → ∃ d, 0 < d ∧ ∀ t, 0 < t → t < d → c - V3.scale t n ∈ S ∧ c + V3.scale t n ∉ S) : Faces S x := by
  intro c hc
  obtain ⟨d, d0, hd⟩ := h c (hp.inner hc)
  obtain ⟨k, k0, hk⟩ := hp.dir
  refine ⟨d / k, div_pos d0 k0, fun t t0 t1 => ?_⟩
  have e : V3.scale t x.plane.normal = V3.scale (t * k) n := by rw [hk]; ext <;> simp [V3.scale, mul_assoc]
  rw [e]
  exact hd (t * k) (mul_pos t0 k0) ((lt_div_iff₀ k0).1 t1)

/-- A point that is strictly in front of planes stays there when it is moved a little. -/
theorem move_little (c m : V3 K) : ∀ (cs : List (Plane K)), (∀ p ∈ cs, p.w < dot3 p.normal c) → ∃ d, 0 < d ∧ ∀ t, -d < t → t < d → ∀ p ∈ cs, p.w < dot3 p.normal (c + V3.scale t m)
  | [], _ => ⟨1, one_pos, by simp⟩
  | p :: cs, h => by
    obtain ⟨d, d0, hd⟩ := move_little c m cs fun p hp => h p (List.mem_cons_of_mem _ hp)
    have h1 := h p (by simp)
    set a := dot3 p.normal m
    have ha : 0 < |a| + 1 := by positivity
    refine ⟨min d ((dot3 p.normal c - p.w) / (|a| + 1)), lt_min d0 (div_pos (by linarith) ha), fun t t1 t2 p' hp' => ?_⟩
    have l1 := min_le_left d ((dot3 p.normal c - p.w) / (|a| + 1))
    have l2 := min_le_right d ((dot3 p.normal c - p.w) / (|a| + 1))
    rcases List.mem_cons.1 hp' with rfl | hp'
    · rw [dot_add', dot_scale']
      have h2 : |t| < (dot3 p'.normal c - p'.w) / (|a| + 1) := abs_lt.2 ⟨by linarith, by linarith⟩
      rw [lt_div_iff₀ ha] at h2
      have h3 : -(|t| * |a|) ≤ t * a := by rw [← abs_mul]; exact neg_abs_le _
      have h4 : 0 ≤ |t| := abs_nonneg t
      show p'.w < dot3 p'.normal c + t * a
      nlinarith
    · exact hd t (by linarith) (by linarith) p' hp'

/-- What building from polygons of the boundary of `S` decides. `cs` has the planes that the region of the tree is in front of, `l` has the part of the boundary that is in the
region. -/
theorem build_decides {S B : Set (V3 K)} (hsep : ∀ p q, (∀ t, 0 ≤ t → t ≤ 1 → lerp3 p q t ∉ B) → (p ∈ S ↔ q ∈ S)) : ∀ (n : Nat) (l : List (Poly K)) (cs : List (Plane K)) (t : Tree (Poly K) (Plane K)) (d : Bool),
    build (polyOps 0) n .nil l = some t →
    (∀ x ∈ l, PolyW x ∧ Faces S x ∧ ∀ p ∈ cs, (∀ v ∈ x.verts, p.w ≤ dot3 p.normal v) ∧ ∃ v ∈ x.verts, p.w < dot3 p.normal v) →
    (∀ q ∈ B, (∀ p ∈ cs, p.w < dot3 p.normal q) → ∃ x ∈ l, Hull3 x.verts q) →
    (l = [] → ∃ r, (∀ p ∈ cs, p.w < dot3 p.normal r) ∧ (r ∈ S ↔ d = false)) →
    ∀ q, (∀ p ∈ cs, p.w ≤ dot3 p.normal q) → q ∉ B → (In (polyOps 0) (polyGeo 0) d t q ↔ q ∈ S) ∧ (Out (polyOps 0) (polyGeo 0) d t q ↔ q ∉ S) := by
  have L := polyLaws (le_refl (0 : K))
  intro n
  have base : ∀ (cs : List (Plane K)) (d : Bool), (∀ q ∈ B, ¬ ∀ p ∈ cs, p.w < dot3 p.normal q) → (∃ r, (∀ p ∈ cs, p.w < dot3 p.normal r) ∧ (r ∈ S ↔ d = false)) →
      ∀ q, (∀ p ∈ cs, p.w ≤ dot3 p.normal q) → q ∉ B → (In (polyOps 0) (polyGeo 0) d (.nil : Tree (Poly K) (Plane K)) q ↔ q ∈ S) ∧ (Out (polyOps 0) (polyGeo 0) d (.nil : Tree (Poly K) (Plane K)) q ↔ q ∉ S) := by
    rintro cs d hB ⟨r, hr, hrd⟩ q hq hqB
    have : q ∈ S ↔ r ∈ S := by
      refine hsep q r fun t t0 t1 ht => ?_
      rcases t0.eq_or_lt with rfl | t0
      · rw [lerp3_zero] at ht; exact hqB ht
      · refine hB _ ht fun p hp => ?_
        rw [dot_lerp]
        have h1 := hq p hp
        have h2 := hr p hp
        nlinarith
    simp only [In, Out, this, hrd]
    cases d <;> simp
  induction n with
  | zero =>
    intro l cs t d hb hl hB hr
    cases l with
    | nil =>
      simp only [build, Option.some.injEq] at hb; subst hb
      exact base cs d (fun q hq h => by obtain ⟨x, hx, -⟩ := hB q hq h; simp at hx) (hr rfl)
    | cons e l => simp [build] at hb
  | succ n ih =>
    intro l cs t d hb hl hB hr
    cases l with
    | nil =>
      simp only [build, Option.some.injEq] at hb; subst hb
      exact base cs d (fun q hq h => by obtain ⟨x, hx, -⟩ := hB q hq h; simp at hx) (hr rfl)
    | cons e l =>
      rw [build_cons] at hb
      dsimp only at hb
      simp only [L.ok_none, Bool.false_eq_true, if_false] at hb
      obtain ⟨we, fe, ce⟩ := hl e (by simp)
      have hok : (polyOps (0 : K)).ok e.plane = true := L.ok_plane e we
      have hpe : (polyOps (0 : K)).plane e = e.plane := rfl
      have hsplit : (polyOps (0 : K)).split = splitPoly 0 := rfl
      rw [hpe, hsplit] at hb
      set p := e.plane with hp
      set lf := (e :: l).flatMap fun x => (splitPoly 0 p x).front with hlf
      set lb := (e :: l).flatMap fun x => (splitPoly 0 p x).back with hlb
      -- points just in front of and just behind `e`
      obtain ⟨c, hc⟩ := inner_exists (l := e.verts) (by have := we.three; intro h; simp [h] at this)
      obtain ⟨d1, d10, hd1⟩ := fe c hc
      obtain ⟨d2, d20, hd2⟩ := move_little c p.normal cs fun p' hp' => hc.2 _ _ (ce p' hp').1 (ce p' hp').2
      have hcp : dot3 p.normal c = p.w :=
        le_antisymm (hull_le (fun v hv => (we.planar v hv).le) hc.1) (hull_ge (fun v hv => (we.planar v hv).ge) hc.1)
      have hnn : 0 < dot3 p.normal p.normal := dot_self_pos (ne_zero_of_turn (we.convex 0 1 2 (by omega) (by omega) (by have := we.three; omega)))
      set s := min d1 d2 / 2 with hs
      have s0 : 0 < s := half_pos (lt_min d10 d20)
      have s1 : s < d1 := by have := min_le_left d1 d2; rw [hs]; linarith [lt_min d10 d20]
      have s2 : s < d2 := by have := min_le_right d1 d2; rw [hs]; linarith [lt_min d10 d20]
      have hS := hd1 s s0 s1
      have hf := hd2 s (by linarith) s2
      have hbk := hd2 (-s) (by linarith) (by linarith)
      have esub : c + V3.scale (-s) p.normal = c - V3.scale s p.normal := by
        ext <;> simp [V3.scale, V3.add_x, V3.add_y, V3.add_z, V3.sub_x, V3.sub_y, V3.sub_z] <;> ring
      rw [esub] at hbk
      have flipw : ∀ q, (p.flip.w ≤ dot3 p.flip.normal q ↔ dot3 p.normal q ≤ p.w) ∧ (p.flip.w < dot3 p.flip.normal q ↔ dot3 p.normal q < p.w) := by
        intro q
        have : dot3 p.flip.normal q = - dot3 p.normal q := by simp only [Plane.flip, dot3]; ring
        rw [this]
        simp only [Plane.flip]
        constructor <;> constructor <;> intro h <;> linarith
      -- the front tree
      have hfront : ∀ f', build (polyOps 0) n .nil lf = some f' → ∀ q, (∀ p' ∈ p :: cs, p'.w ≤ dot3 p'.normal q) → q ∉ B →
          (In (polyOps 0) (polyGeo 0) true f' q ↔ q ∈ S) ∧ (Out (polyOps 0) (polyGeo 0) true f' q ↔ q ∉ S) := by
        intro f' hf'
        refine ih lf (p :: cs) f' true hf' ?_ ?_ ?_
        · intro x hx
          obtain ⟨y, hy, hxy⟩ := List.mem_flatMap.1 hx
          obtain ⟨wy, fy, cy⟩ := hl y hy
          obtain ⟨hpo, h1, h2⟩ := (split_exact p wy).2.1 x hxy
          refine ⟨hpo.wf, Faces.part hpo fy, fun p' hp' => ?_⟩
          rcases List.mem_cons.1 hp' with rfl | hp'
          · exact ⟨h1, h2⟩
          · exact hpo.strict (cy p' hp').1 (cy p' hp').2
        · intro q hq hcs
          obtain ⟨y, hy, hqy⟩ := hB q hq fun p' hp' => hcs p' (List.mem_cons_of_mem _ hp')
          have wy := (hl y hy).1
          have hpq := hcs p (by simp)
          obtain ⟨x, hx, hqx⟩ := L.cover p y wy q hqy
          have hqx' : Hull3 x.verts q := hqx
          obtain ⟨e1, e2, e3⟩ := split_exact p wy
          rcases hx with hx | hx | hx | hx
          · exact absurd hpq (not_lt.2 (hull_le (fun v hv => ((e1 x (List.mem_append_left _ hx)).2 v hv).le) hqx'))
          · exact absurd hpq (not_lt.2 (hull_le (fun v hv => ((e1 x (List.mem_append_right _ hx)).2 v hv).le) hqx'))
          · exact ⟨x, List.mem_flatMap.2 ⟨y, hy, hx⟩, hqx'⟩
          · exact absurd hpq (not_lt.2 (hull_le (e3 x hx).2.1 hqx'))
        · intro _
          refine ⟨_, fun p' hp' => ?_, iff_of_false hS.2 (by simp)⟩
          rcases List.mem_cons.1 hp' with rfl | hp'
          · rw [dot_add', dot_scale', hcp]; nlinarith
          · exact hf p' hp'
      have hback : ∀ b', build (polyOps 0) n .nil lb = some b' → ∀ q, (∀ p' ∈ p.flip :: cs, p'.w ≤ dot3 p'.normal q) → q ∉ B →
          (In (polyOps 0) (polyGeo 0) false b' q ↔ q ∈ S) ∧ (Out (polyOps 0) (polyGeo 0) false b' q ↔ q ∉ S) := by
        intro b' hb'
        refine ih lb (p.flip :: cs) b' false hb' ?_ ?_ ?_
        · intro x hx
          obtain ⟨y, hy, hxy⟩ := List.mem_flatMap.1 hx
          obtain ⟨wy, fy, cy⟩ := hl y hy
          obtain ⟨hpo, h1, v, hv, h2⟩ := (split_exact p wy).2.2 x hxy
          refine ⟨hpo.wf, Faces.part hpo fy, fun p' hp' => ?_⟩
          rcases List.mem_cons.1 hp' with rfl | hp'
          · exact ⟨fun v hv => (flipw v).1.2 (h1 v hv), v, hv, (flipw v).2.2 h2⟩
          · exact hpo.strict (cy p' hp').1 (cy p' hp').2
        · intro q hq hcs
          obtain ⟨y, hy, hqy⟩ := hB q hq fun p' hp' => hcs p' (List.mem_cons_of_mem _ hp')
          have wy := (hl y hy).1
          have hpq := (flipw q).2.1 (hcs p.flip (by simp))
          obtain ⟨x, hx, hqx⟩ := L.cover p y wy q hqy
          have hqx' : Hull3 x.verts q := hqx
          obtain ⟨e1, e2, e3⟩ := split_exact p wy
          rcases hx with hx | hx | hx | hx
          · exact absurd hpq (not_lt.2 (hull_ge (fun v hv => ((e1 x (List.mem_append_left _ hx)).2 v hv).ge) hqx'))
          · exact absurd hpq (not_lt.2 (hull_ge (fun v hv => ((e1 x (List.mem_append_right _ hx)).2 v hv).ge) hqx'))
          · exact absurd hpq (not_lt.2 (hull_ge (e2 x hx).2.1 hqx'))
          · exact ⟨x, List.mem_flatMap.2 ⟨y, hy, hx⟩, hqx'⟩
        · intro _
          refine ⟨_, fun p' hp' => ?_, iff_of_true hS.1 rfl⟩
          rcases List.mem_cons.1 hp' with rfl | hp'
          · rw [(flipw _).2, dot_sub', dot_scale', hcp]; nlinarith
          · exact hbk p' hp'
      split at hb
      · rename_i f' b' hf' hb'
        simp only [Option.some.injEq] at hb; subst hb
        intro q hq hqB
        have HF := hfront f' hf' q
        have HB := hback b' hb' q
        have eside : (polyGeo (0 : K)).side p q = dot3 p.normal q - p.w := rfl
        have eeps : (polyGeo (0 : K)).eps = 0 := rfl
        simp only [In, Out, hok, eside, eeps, neg_zero, true_and, forall_const, sub_nonneg, sub_nonpos]
        have HF' : p.w ≤ dot3 p.normal q → (In (polyOps 0) (polyGeo 0) true f' q ↔ q ∈ S) ∧ (Out (polyOps 0) (polyGeo 0) true f' q ↔ q ∉ S) := by
          intro h
          exact HF (fun p' hp' => by rcases List.mem_cons.1 hp' with rfl | hp'; exacts [h, hq p' hp']) hqB
        have HB' : dot3 p.normal q ≤ p.w → (In (polyOps 0) (polyGeo 0) false b' q ↔ q ∈ S) ∧ (Out (polyOps 0) (polyGeo 0) false b' q ↔ q ∉ S) := by
          intro h
          exact HB (fun p' hp' => by rcases List.mem_cons.1 hp' with rfl | hp'; exacts [(flipw q).1.2 h, hq p' hp']) hqB
        rcases le_total p.w (dot3 p.normal q) with h | h
        · constructor
          · exact ⟨fun hh => (HF' h).1.1 (hh.1 h), fun hh => ⟨fun h => (HF' h).1.2 hh, fun h => (HB' h).1.2 hh⟩⟩
          · exact ⟨fun hh => (HF' h).2.1 (hh.1 h), fun hh => ⟨fun h => (HF' h).2.2 hh, fun h => (HB' h).2.2 hh⟩⟩
        · constructor
          · exact ⟨fun hh => (HB' h).1.1 (hh.2 h), fun hh => ⟨fun h => (HF' h).1.2 hh, fun h => (HB' h).1.2 hh⟩⟩
          · exact ⟨fun hh => (HB' h).2.1 (hh.2 h), fun hh => ⟨fun h => (HF' h).2.2 hh, fun h => (HB' h).2.2 hh⟩⟩
      · exact absurd hb (by simp)

end Verif.Csg
