import Verif.Proofs.SolidCore
import Verif.Proofs.Gordan
import Mathlib.Data.Finset.Card
/-
A way that meets no polygon of the result does not leave the solid and does not enter it.
-/
namespace Verif.Csg
open Verif Verif.Geom Verif.Mesh

variable {K : Type} [Field K] [LinearOrder K] [IsStrictOrderedRing K]

/-! ### Points in general position -/

/-- A direction that is in none of finitely many planes. -/
theorem avoid_dirs : ∀ l : List (V3 K), (∀ n ∈ l, n ≠ 0) → ∃ e, ∀ n ∈ l, dot3 n e ≠ 0
  | [], _ => ⟨0, by simp⟩
  | n :: l, h => by
    obtain ⟨e, he⟩ := avoid_dirs l fun n hn => h n (List.mem_cons_of_mem _ hn)
    obtain ⟨d, d0, hd⟩ := off_little e n ((n :: l).map fun n => (⟨n, 0⟩ : Plane K)) (by
      intro p hp h0
      obtain ⟨k, hk, rfl⟩ := List.mem_map.1 hp
      rcases List.mem_cons.1 hk with rfl | hk
      · exact (dot_self_pos (h k (by simp))).ne'
      · exact absurd h0 (he k hk))
    refine ⟨e + V3.scale (d / 2) n, fun k hk => ?_⟩
    exact hd (d / 2) (by linarith) (by linarith) (by linarith) ⟨k, 0⟩ (List.mem_map.2 ⟨k, hk, rfl⟩)

/-- A point can be moved off finitely many planes without leaving an open set. -/
theorem move_off (q : V3 K) (cs ps : List (Plane K)) (hc : ∀ c ∈ cs, c.w < dot3 c.normal q) (hp : ∀ p ∈ ps, p.normal ≠ 0) :
    ∃ q', (∀ c ∈ cs, c.w < dot3 c.normal q') ∧ ∀ p ∈ ps, dot3 p.normal q' ≠ p.w := by
  obtain ⟨e, he⟩ := avoid_dirs (ps.map fun p => p.normal) (by
    intro n hn
    obtain ⟨p, h, rfl⟩ := List.mem_map.1 hn
    exact hp p h)
  obtain ⟨d, d0, hd⟩ := off_little q e ps fun p h _ => he _ (List.mem_map.2 ⟨p, h, rfl⟩)
  obtain ⟨i, i0, hi⟩ := move_little q e cs hc
  have hm := lt_min d0 i0
  have l1 := min_le_left d i
  have l2 := min_le_right d i
  exact ⟨q + V3.scale (min d i / 2) e, hi _ (by linarith) (by linarith), hd _ (by linarith) (by linarith) (by linarith)⟩

def SamePlane (p p' : Plane K) : Prop := ∀ y, dot3 p.normal y = p.w ↔ dot3 p'.normal y = p'.w

/-- From a point that is off the planes, almost every way meets no two different planes at once. -/
theorem general {ps : List (Plane K)} (hp : ∀ p ∈ ps, p.normal ≠ 0) {p : V3 K} (h : ∀ P ∈ ps, dot3 P.normal p ≠ P.w) (q : V3 K) (cs : List (Plane K)) (hc : ∀ c ∈ cs, c.w < dot3 c.normal q) :
    ∃ q', (∀ c ∈ cs, c.w < dot3 c.normal q') ∧ (∀ P ∈ ps, dot3 P.normal q' ≠ P.w)
      ∧ ∀ P ∈ ps, ∀ P' ∈ ps, ∀ s, dot3 P.normal (lerp3 p q' s) = P.w → dot3 P'.normal (lerp3 p q' s) = P'.w → SamePlane P P' := by
  classical
  set g : Plane K × Plane K → V3 K := fun x => V3.scale (dot3 x.2.normal p - x.2.w) x.1.normal - V3.scale (dot3 x.1.normal p - x.1.w) x.2.normal with hg
  have dg : ∀ x y, dot3 (g x) y = (dot3 x.2.normal p - x.2.w) * dot3 x.1.normal y - (dot3 x.1.normal p - x.1.w) * dot3 x.2.normal y := by
    intro x y; simp only [hg, dot3, V3.sub_x, V3.sub_y, V3.sub_z, V3.scale_x, V3.scale_y, V3.scale_z]; ring
  set es : List (Plane K) := ((ps ×ˢ ps).filter fun x => g x ≠ 0).map fun x => ⟨g x, dot3 (g x) p⟩ with hes
  obtain ⟨q', h1, h2⟩ := move_off q cs (ps ++ es) hc (by
    intro P hP
    rcases List.mem_append.1 hP with hP | hP
    · exact hp P hP
    · obtain ⟨x, hx, rfl⟩ := List.mem_map.1 hP
      simpa using (List.mem_filter.1 hx).2)
  refine ⟨q', h1, fun P hP => h2 P (List.mem_append_left _ hP), fun P hP P' hP' s e1 e2 => ?_⟩
  have c0 : dot3 P.normal p - P.w ≠ 0 := sub_ne_zero.2 (h P hP)
  have c0' : dot3 P'.normal p - P'.w ≠ 0 := sub_ne_zero.2 (h P' hP')
  by_cases hz : g (P, P') = 0
  · have hy : ∀ y, (dot3 P'.normal p - P'.w) * dot3 P.normal y = (dot3 P.normal p - P.w) * dot3 P'.normal y := by
      intro y
      have := dg (P, P') y
      rw [hz] at this
      simp only [dot3, V3.zero_x, V3.zero_y, V3.zero_z] at this ⊢
      linear_combination -this
    have hw := hy (lerp3 p q' s)
    rw [e1, e2] at hw
    intro y
    have := hy y
    constructor
    · intro hh
      rw [hh, hw] at this
      exact (mul_left_cancel₀ c0 this).symm
    · intro hh
      rw [hh, ← hw] at this
      exact mul_left_cancel₀ c0' this
  · exfalso
    have hne := h2 ⟨g (P, P'), dot3 (g (P, P')) p⟩ (List.mem_append_right _ (List.mem_map.2 ⟨(P, P'), List.mem_filter.2 ⟨List.mem_product.2 ⟨hP, hP'⟩, by simpa using hz⟩, rfl⟩))
    have ev := dg (P, P') (lerp3 p q' s)
    rw [e1, e2, dot_lerp] at ev
    have ep := dg (P, P') p
    simp only at ev ep hne
    have : s * (dot3 (g (P, P')) q' - dot3 (g (P, P')) p) = 0 := by linear_combination ev - ep
    rcases mul_eq_zero.1 this with hs | hs
    · rw [hs, lerp3_zero] at e1
      exact h P hP e1
    · exact hne (sub_eq_zero.1 hs)

/-! ### Walls -/

/-- The planes through two corners of a polygon, perpendicular to it. -/
def walls (x : Poly K) : List (Plane K) :=
  ((x.verts ×ˢ x.verts).filter fun a => decide (a.1 ≠ a.2)).map fun a => ⟨cross3 x.plane.normal (a.2 - a.1), dot3 (cross3 x.plane.normal (a.2 - a.1)) a.1⟩

theorem mem_walls {x : Poly K} {u v : V3 K} (hu : u ∈ x.verts) (hv : v ∈ x.verts) (h : u ≠ v) :
    (⟨cross3 x.plane.normal (v - u), dot3 (cross3 x.plane.normal (v - u)) u⟩ : Plane K) ∈ walls x :=
  List.mem_map.2 ⟨(u, v), List.mem_filter.2 ⟨List.mem_product.2 ⟨hu, hv⟩, by simpa using h⟩, rfl⟩

theorem walls_ok {x : Poly K} (hx : PolyW x) {p : Plane K} (hp : p ∈ walls x) : p.normal ≠ 0 ∧ dot3 p.normal x.plane.normal = 0 := by
  obtain ⟨⟨u, v⟩, ha, rfl⟩ := List.mem_map.1 hp
  obtain ⟨ha, hne⟩ := List.mem_filter.1 ha
  obtain ⟨hu, hv⟩ := List.mem_product.1 ha
  have hne : u ≠ v := by simpa using hne
  constructor
  · intro h0
    simp only at h0
    have hd : dot3 x.plane.normal (v - u) = 0 := by rw [dot_sub', hx.planar v hv, hx.planar u hu, sub_self]
    have hn := dot_self_pos (polyW_normal hx)
    have hdd := dot_self_pos (n := v - u) (by
      intro h
      apply hne
      have hx := congrArg V3.x h
      have hy := congrArg V3.y h
      have hz := congrArg V3.z h
      simp only [V3.sub_x, V3.sub_y, V3.sub_z, V3.zero_x, V3.zero_y, V3.zero_z] at hx hy hz
      ext <;> linarith)
    have lag : dot3 (cross3 x.plane.normal (v - u)) (cross3 x.plane.normal (v - u)) = dot3 x.plane.normal x.plane.normal * dot3 (v - u) (v - u) - dot3 x.plane.normal (v - u) ^ 2 := by
      simp only [dot3, cross3]; ring
    rw [h0, hd] at lag
    have : dot3 (0 : V3 K) 0 = 0 := by simp [dot3]
    rw [this] at lag
    have := mul_pos hn hdd
    linarith
  · simp only [dot3, cross3]; ring

/-- Three different corners of a polygon are not on a line. -/
theorem three_turn {x : Poly K} (hx : PolyW x) {u v z : V3 K} (hu : u ∈ x.verts) (hv : v ∈ x.verts) (hz : z ∈ x.verts) (h1 : u ≠ v) (h2 : u ≠ z) (h3 : v ≠ z) :
    ∃ a ∈ [u, v, z], ∃ b ∈ [u, v, z], ∃ c ∈ [u, v, z], 0 < turn x.plane.normal a b c := by
  obtain ⟨i, hi, rfl⟩ := List.getElem_of_mem hu
  obtain ⟨j, hj, rfl⟩ := List.getElem_of_mem hv
  obtain ⟨k, hk, rfl⟩ := List.getElem_of_mem hz
  have hc := hx.convex
  have g : ∀ i (h : i < x.verts.length), x.verts.getD i 0 = x.verts[i] := fun i h => by simp [h]
  have hij : i ≠ j := fun h => h1 (by subst h; rfl)
  have hik : i ≠ k := fun h => h2 (by subst h; rfl)
  have hjk : j ≠ k := fun h => h3 (by subst h; rfl)
  rcases lt_or_gt_of_ne hij with a | a <;> rcases lt_or_gt_of_ne hik with b | b <;> rcases lt_or_gt_of_ne hjk with c | c
  · have := hc i j k a c hk; rw [g i hi, g j hj, g k hk] at this; exact ⟨_, by simp, _, by simp, _, by simp, this⟩
  · have := hc i k j b c hj; rw [g i hi, g j hj, g k hk] at this; exact ⟨_, by simp, _, by simp, _, by simp, this⟩
  · omega
  · have := hc k i j b a hj; rw [g i hi, g j hj, g k hk] at this; exact ⟨_, by simp, _, by simp, _, by simp, this⟩
  · have := hc j i k a b hk; rw [g i hi, g j hj, g k hk] at this; exact ⟨_, by simp, _, by simp, _, by simp, this⟩
  · omega
  · have := hc j k i c b hi; rw [g i hi, g j hj, g k hk] at this; exact ⟨_, by simp, _, by simp, _, by simp, this⟩
  · have := hc k j i c a hi; rw [g i hi, g j hj, g k hk] at this; exact ⟨_, by simp, _, by simp, _, by simp, this⟩

/-- A point of a hull that is in a plane that supports the hull is in the hull of the corners in the plane. -/
theorem hull_face {vs : List (V3 K)} {n : V3 K} {w : K} (h : ∀ v ∈ vs, w ≤ dot3 n v) {q : V3 K} (hq : Hull3 vs q) : dot3 n q = w → Hull3 (vs.filter fun v => decide (dot3 n v = w)) q := by
  induction hq with
  | pt hv => intro e; exact .pt (List.mem_filter.2 ⟨hv, by simpa using e⟩)
  | @seg a b t ha hb t0 t1 iha ihb =>
    intro e
    rw [dot_lerp] at e
    have ga := hull_ge h ha
    have gb := hull_ge h hb
    rcases t0.eq_or_lt with rfl | t0'
    · rw [lerp3_zero]; exact iha (by linarith)
    rcases t1.eq_or_lt with rfl | t1'
    · have : lerp3 a b 1 = b := by ext <;> simp [lerp3]
      rw [this]; exact ihb (by linarith)
    · have e1 : dot3 n a = w := by
        by_contra hne
        have := lt_of_le_of_ne ga (Ne.symm hne)
        nlinarith
      have e2 : dot3 n b = w := by
        by_contra hne
        have := lt_of_le_of_ne gb (Ne.symm hne)
        nlinarith
      exact .seg (iha e1) (ihb e2) t0 t1

omit [Field K] [LinearOrder K] [IsStrictOrderedRing K] in
theorem hull_nil [Field K] [LinearOrder K] {q : V3 K} : ¬ Hull3 ([] : List (V3 K)) q := by
  intro h
  generalize hl : ([] : List (V3 K)) = l at h
  induction h with
  | pt hv => subst hl; simp at hv
  | seg _ _ _ _ ih _ => exact ih

/-- A point of a polygon that is on none of its walls is an inner point. -/
theorem inner_of_walls {x : Poly K} (hx : PolyW x) {c : V3 K} (hc : Hull3 x.verts c) (h : ∀ p ∈ walls x, dot3 p.normal c ≠ p.w) : Inner x.verts c := by
  classical
  refine ⟨hc, fun n w h1 h2 => ?_⟩
  by_contra hn
  have e : dot3 n c = w := le_antisymm (not_lt.1 hn) (hull_ge h1 hc)
  have hf := hull_face h1 hc e
  set Z := x.verts.filter fun v => decide (dot3 n v = w) with hZ
  have mZ : ∀ z ∈ Z, z ∈ x.verts ∧ dot3 n z = w := fun z hz => by simpa [hZ] using hz
  have : ∃ u ∈ Z, ∃ u' ∈ x.verts, u ≠ u' ∧ ∀ z ∈ Z, z = u ∨ z = u' := by
    cases hz : Z with
    | nil => rw [hz] at hf; exact absurd hf hull_nil
    | cons u Z' =>
      refine ⟨u, by simp, ?_⟩
      rw [← hz]
      have hu : u ∈ Z := by rw [hz]; simp
      by_cases hall : ∀ z ∈ Z, z = u
      · obtain ⟨a, ha, b, hb, c, hc, ht⟩ := (PartOf.self hx).three
        by_cases hau : a = u
        · refine ⟨b, hb, ?_, fun z hz => Or.inl (hall z hz)⟩
          rintro rfl
          rw [hau, turn_same1] at ht
          exact lt_irrefl _ ht
        · exact ⟨a, ha, fun h => hau h.symm, fun z hz => Or.inl (hall z hz)⟩
      · push Not at hall
        obtain ⟨u', hu', hne⟩ := hall
        refine ⟨u', (mZ u' hu').1, hne.symm, fun z hz => ?_⟩
        by_contra hcon
        push Not at hcon
        obtain ⟨a, ha, b, hb, c, hc, ht⟩ := three_turn hx (mZ u hu).1 (mZ u' hu').1 (mZ z hz).1 hne.symm (fun h => hcon.1 h.symm) (fun h => hcon.2 h.symm)
        have inZ : ∀ a ∈ [u, u', z], a ∈ x.verts ∧ dot3 n a = w := by
          intro a ha
          simp only [List.mem_cons, List.not_mem_nil, or_false] at ha
          rcases ha with rfl | rfl | rfl
          exacts [mZ _ hu, mZ _ hu', mZ _ hz]
        obtain ⟨v, hv, hlt⟩ := h2
        have := same_plane ht (hx.planar a (inZ a ha).1) (hx.planar b (inZ b hb).1) (hx.planar c (inZ c hc).1) (hx.planar v hv) (inZ a ha).2 (inZ b hb).2 (inZ c hc).2
        linarith
  obtain ⟨u, hu, u', hu', hne, hall⟩ := this
  refine h _ (mem_walls (mZ u hu).1 hu' hne) ?_
  refine in_plane (p := ⟨cross3 x.plane.normal (u' - u), dot3 (cross3 x.plane.normal (u' - u)) u⟩) (vs := Z) (fun z hz => ?_) hf
  rcases hall z hz with rfl | rfl
  · rfl
  · have : dot3 (cross3 x.plane.normal (z - u)) (z - u) = 0 := by simp only [dot3, cross3]; ring
    rw [dot_sub'] at this
    simp only
    linarith

/-! ### Along a line -/

/-- Close to a number there is no other one of finitely many. -/
theorem isolate (r : K) (R : Finset K) : ∃ d, 0 < d ∧ ∀ e, 0 < e → e < d → r - e ∉ R ∧ r + e ∉ R := by
  classical
  induction R using Finset.induction_on with
  | empty => exact ⟨1, one_pos, by simp⟩
  | insert a R _ ih =>
    obtain ⟨d, d0, hd⟩ := ih
    by_cases h : a = r
    · refine ⟨d, d0, fun e e0 e1 => ?_⟩
      have := hd e e0 e1
      simp only [Finset.mem_insert, not_or]
      exact ⟨⟨fun h' => by linarith, this.1⟩, ⟨fun h' => by linarith, this.2⟩⟩
    · have ha : 0 < |a - r| := abs_pos.2 (sub_ne_zero.2 h)
      refine ⟨min d |a - r|, lt_min d0 ha, fun e e0 e1 => ?_⟩
      have := hd e e0 (lt_of_lt_of_le e1 (min_le_left _ _))
      have h2 := lt_of_lt_of_le e1 (min_le_right _ _)
      simp only [Finset.mem_insert, not_or]
      refine ⟨⟨fun hh => ?_, this.1⟩, ⟨fun hh => ?_, this.2⟩⟩
      · have : a - r = -e := by linarith
        rw [this, abs_neg, abs_of_pos e0] at h2
        exact lt_irrefl _ h2
      · have : a - r = e := by linarith
        rw [this, abs_of_pos e0] at h2
        exact lt_irrefl _ h2

/-- What changes at no point of the line does not change. -/
theorem along (R : Finset K) (F : K → Prop) (h1 : ∀ s u, 0 ≤ s → s ≤ u → u ≤ 1 → (∀ r ∈ R, ¬ (s ≤ r ∧ r ≤ u)) → (F s ↔ F u))
    (h2 : ∀ r ∈ R, 0 < r → r < 1 → ∃ d, 0 < d ∧ ∀ e, 0 < e → e < d → (F (r - e) ↔ F (r + e))) (h0 : (0 : K) ∉ R) (h1' : (1 : K) ∉ R) : F 0 ↔ F 1 := by
  classical
  have key : ∀ (n : Nat) (s u : K), 0 ≤ s → s ≤ u → u ≤ 1 → s ∉ R → u ∉ R → (R.filter fun r => s < r ∧ r < u).card ≤ n → (F s ↔ F u) := by
    intro n
    induction n with
    | zero =>
      intro s u s0 su u1 hs hu hc
      refine h1 s u s0 su u1 fun r hr hsr => ?_
      have : r ∈ R.filter fun r => s < r ∧ r < u := Finset.mem_filter.2 ⟨hr, lt_of_le_of_ne hsr.1 (fun h => hs (h ▸ hr)), lt_of_le_of_ne hsr.2 (fun h => hu (h ▸ hr))⟩
      rw [Finset.card_eq_zero.1 (Nat.le_zero.1 hc)] at this
      simp at this
    | succ n ih =>
      intro s u s0 su u1 hs hu hc
      by_cases he : ∃ r ∈ R, s < r ∧ r < u
      · obtain ⟨r, hr, sr, ru⟩ := he
        obtain ⟨d, d0, hd⟩ := h2 r hr (by linarith) (by linarith)
        obtain ⟨i, i0, hi⟩ := isolate r R
        set e := min (min d i) (min (r - s) (u - r)) / 2 with hee
        have m0 : 0 < min (min d i) (min (r - s) (u - r)) := lt_min (lt_min d0 i0) (lt_min (by linarith) (by linarith))
        have e0 : 0 < e := half_pos m0
        have e1 : e < min (min d i) (min (r - s) (u - r)) := half_lt_self m0
        have l1 : e < d := lt_of_lt_of_le e1 ((min_le_left _ _).trans (min_le_left _ _))
        have l2 : e < i := lt_of_lt_of_le e1 ((min_le_left _ _).trans (min_le_right _ _))
        have l3 : e < r - s := lt_of_lt_of_le e1 ((min_le_right _ _).trans (min_le_left _ _))
        have l4 : e < u - r := lt_of_lt_of_le e1 ((min_le_right _ _).trans (min_le_right _ _))
        have sub : ∀ s' u', s ≤ s' → u' ≤ u → (∀ x, s' < x → x < u' → x ≠ r) → (R.filter fun r => s' < r ∧ r < u').card ≤ n := by
          intro s' u' hs' hu' hx
          have : (R.filter fun r => s' < r ∧ r < u').card < (R.filter fun r => s < r ∧ r < u).card := by
            refine Finset.card_lt_card ⟨fun y hy => ?_, fun hh => ?_⟩
            · obtain ⟨hy, y1, y2⟩ := Finset.mem_filter.1 hy
              exact Finset.mem_filter.2 ⟨hy, lt_of_le_of_lt hs' y1, lt_of_lt_of_le y2 hu'⟩
            · obtain ⟨-, y1, y2⟩ := Finset.mem_filter.1 (hh (Finset.mem_filter.2 ⟨hr, sr, ru⟩))
              exact hx r y1 y2 rfl
          omega
        have f1 := ih s (r - e) s0 (by linarith) (by linarith) hs (hi e e0 l2).1 (sub s (r - e) le_rfl (by linarith) fun x _ h2 => (by linarith : x < r).ne)
        have f2 := ih (r + e) u (by linarith) (by linarith) u1 (hi e e0 l2).2 hu (sub (r + e) u (by linarith) le_rfl fun x h1 _ => (by linarith : r < x).ne')
        exact f1.trans ((hd e e0 l1).trans f2)
      · push Not at he
        refine h1 s u s0 su u1 fun r hr hsr => ?_
        have a1 : s < r := lt_of_le_of_ne hsr.1 fun h => hs (h ▸ hr)
        have a2 : r < u := lt_of_le_of_ne hsr.2 fun h => hu (h ▸ hr)
        exact absurd a2 (not_lt.2 (he r hr a1))
  exact key _ 0 1 le_rfl zero_le_one le_rfl h0 h1' le_rfl

/-- Where a line crosses finitely many planes. -/
theorem crossings (ps : List (Plane K)) (p q : V3 K) (h : ∀ P ∈ ps, dot3 P.normal p ≠ P.w) : ∃ R : Finset K, ∀ s, s ∈ R ↔ ∃ P ∈ ps, dot3 P.normal (lerp3 p q s) = P.w := by
  classical
  refine ⟨((ps.map fun P => (P.w - dot3 P.normal p) / (dot3 P.normal q - dot3 P.normal p)).toFinset).filter fun s => ∃ P ∈ ps, dot3 P.normal (lerp3 p q s) = P.w, fun s => ?_⟩
  rw [Finset.mem_filter]
  refine ⟨fun h => h.2, fun ⟨P, hP, e⟩ => ⟨List.mem_toFinset.2 (List.mem_map.2 ⟨P, hP, ?_⟩), P, hP, e⟩⟩
  rw [dot_lerp] at e
  have hne : dot3 P.normal q - dot3 P.normal p ≠ 0 := by
    intro h0
    have : dot3 P.normal q = dot3 P.normal p := by linarith
    rw [this] at e
    exact h P hP (by linarith)
  rw [div_eq_iff hne]
  linear_combination -e

/-- Points on the same side of the only plane through `v`, close to `v`. -/
theorem near (ps : List (Plane K)) {P0 : Plane K} {v d m : V3 K} (hv : dot3 P0.normal v = P0.w) (hps : ∀ P ∈ ps, dot3 P.normal v = P.w → SamePlane P P0) (hd : 0 < dot3 P0.normal d) (hm : 0 < dot3 P0.normal m) :
    ∃ e, 0 < e ∧ ∀ i j, 0 < i → i < e → 0 < j → j < e → ∀ t, 0 ≤ t → t ≤ 1 → ∀ P ∈ ps, dot3 P.normal (lerp3 (v + V3.scale i d) (v + V3.scale j m) t) ≠ P.w := by
  classical
  set cs : List (Plane K) := (ps.filter fun P => decide (dot3 P.normal v ≠ P.w)).map fun P => if P.w < dot3 P.normal v then P else P.flip with hcs
  have hc : ∀ c ∈ cs, c.w < dot3 c.normal v := by
    intro c hc
    obtain ⟨P, hP, rfl⟩ := List.mem_map.1 hc
    have hne : dot3 P.normal v ≠ P.w := by simpa using (List.mem_filter.1 hP).2
    split_ifs with h
    · exact h
    · have := lt_of_le_of_ne (not_lt.1 h) hne
      rw [dot_flip]; simpa [Plane.flip] using this
  obtain ⟨e1, e10, h1⟩ := move_little v d cs hc
  obtain ⟨e2, e20, h2⟩ := move_little v m cs hc
  refine ⟨min e1 e2, lt_min e10 e20, fun i j i0 i1 j0 j1 t t0 t1 P hP e => ?_⟩
  have g1 := h1 i (by linarith) (lt_of_lt_of_le i1 (min_le_left _ _))
  have g2 := h2 j (by linarith) (lt_of_lt_of_le j1 (min_le_right _ _))
  by_cases hne : dot3 P.normal v = P.w
  · have := (hps P hP hne _).1 e
    rw [dot_lerp, dot_add', dot_add', dot_scale', dot_scale', hv] at this
    have := conv_lt t0 t1 (show P0.w < P0.w + i * dot3 P0.normal d by nlinarith) (show P0.w < P0.w + j * dot3 P0.normal m by nlinarith)
    linarith
  · have hmem : (if P.w < dot3 P.normal v then P else P.flip) ∈ cs := List.mem_map.2 ⟨P, List.mem_filter.2 ⟨hP, by simpa using hne⟩, rfl⟩
    have k1 := g1 _ hmem
    have k2 := g2 _ hmem
    split_ifs at k1 k2 with h
    · have := conv_lt t0 t1 k1 k2
      rw [← dot_lerp, e] at this
      exact lt_irrefl _ this
    · have := conv_lt t0 t1 k1 k2
      rw [← dot_lerp, dot_flip, e] at this
      simp [Plane.flip] at this

/-! ### The way -/

theorem lerp_add (p q : V3 K) (r e : K) : lerp3 p q (r + e) = lerp3 p q r + V3.scale e (q - p) := by
  ext <;> simp only [lerp3, V3.add_x, V3.add_y, V3.add_z, V3.sub_x, V3.sub_y, V3.sub_z, V3.scale_x, V3.scale_y, V3.scale_z] <;> ring

theorem off_avoids {t : Tree (Poly K) (Plane K)} (h : Placed t) {y : V3 K} (hy : ∀ P ∈ planes t, dot3 P.normal y ≠ P.w) : ∀ x ∈ all t, ¬ Hull3 x.verts y := by
  intro x hx hh
  obtain ⟨P, hP, hv⟩ := placed_plane h x hx
  exact hy P hP (in_plane hv hh)

/-- Points that can be joined without meeting a plane of the tree are both in the solid or both not. -/
theorem same_cell {t : Tree (Poly K) (Plane K)} {S : Set (V3 K)} (h : Solid t S) {y z : V3 K} (hyz : ∀ s, 0 ≤ s → s ≤ 1 → ∀ P ∈ planes t, dot3 P.normal (lerp3 y z s) ≠ P.w) : y ∈ S ↔ z ∈ S :=
  h.sep y z fun s s0 s1 => off_avoids h.placed (hyz s s0 s1)

/-- At a crossing of a single plane. -/
theorem crossing {a b : Tree (Poly K) (Plane K)} {SA SB : Set (V3 K)} (ha : Solid a SA) (hb : Solid b SB) {r : List (Poly K)} (hk : Keeps a b SA SB r) {ps : List (Plane K)}
    (hpa : ∀ P ∈ planes a, P ∈ ps) (hpb : ∀ P ∈ planes b, P ∈ ps) (hw : ∀ x ∈ all a, ∀ P ∈ walls x, P ∈ ps)
    {P0 : Plane K} (hP0 : P0.normal ≠ 0) {v d : V3 K} (hv : dot3 P0.normal v = P0.w) (hps : ∀ P ∈ ps, dot3 P.normal v = P.w → SamePlane P P0) (hd : 0 < dot3 P0.normal d)
    (hr : ∀ x ∈ r, ¬ Hull3 x.verts v) : ∃ e, 0 < e ∧ ∀ i, 0 < i → i < e → (v + V3.scale (-i) d ∈ SA ∪ SB ↔ v + V3.scale i d ∈ SA ∪ SB) := by
  have neg : ∀ i (m : V3 K), v + V3.scale i (V3.scale (-1) m) = v + V3.scale (-i) m := by
    intro i m; ext <;> simp only [V3.add_x, V3.add_y, V3.add_z, V3.scale_x, V3.scale_y, V3.scale_z] <;> ring
  -- both sides
  have nearF : ∀ m, 0 < dot3 P0.normal m → ∃ e, 0 < e ∧ ∀ i j, 0 < i → i < e → 0 < j → j < e →
      ((v + V3.scale i d ∈ SA ↔ v + V3.scale j m ∈ SA) ∧ (v + V3.scale i d ∈ SB ↔ v + V3.scale j m ∈ SB)) ∧ ∀ P ∈ ps, dot3 P.normal (v + V3.scale i d) ≠ P.w := by
    intro m hm
    obtain ⟨e, e0, he⟩ := near ps hv hps hd hm
    refine ⟨e, e0, fun i j i0 i1 j0 j1 => ⟨⟨same_cell ha fun s s0 s1 P hP => he i j i0 i1 j0 j1 s s0 s1 P (hpa P hP), same_cell hb fun s s0 s1 P hP => he i j i0 i1 j0 j1 s s0 s1 P (hpb P hP)⟩, fun P hP => ?_⟩⟩
    have := he i j i0 i1 j0 j1 0 le_rfl zero_le_one P hP
    rwa [lerp3_zero] at this
  have ew : P0.flip.w = -P0.w := by simp [Plane.flip]
  have dneg : ∀ m, dot3 P0.flip.normal (V3.scale (-1) m) = dot3 P0.normal m := by intro m; rw [dot_flip, dot_scale']; ring
  have nearB : ∀ m, 0 < dot3 P0.normal m → ∃ e, 0 < e ∧ ∀ i j, 0 < i → i < e → 0 < j → j < e →
      ((v + V3.scale (-i) d ∈ SA ↔ v + V3.scale (-j) m ∈ SA) ∧ (v + V3.scale (-i) d ∈ SB ↔ v + V3.scale (-j) m ∈ SB)) ∧ ∀ P ∈ ps, dot3 P.normal (v + V3.scale (-i) d) ≠ P.w := by
    intro m hm
    obtain ⟨e, e0, he⟩ := near ps (P0 := P0.flip) (d := V3.scale (-1) d) (m := V3.scale (-1) m) (by rw [dot_flip, ew, hv])
      (fun P hP h y => (hps P hP h y).trans (by rw [dot_flip, ew, neg_inj])) (by rw [dneg]; exact hd) (by rw [dneg]; exact hm)
    simp only [neg] at he
    refine ⟨e, e0, fun i j i0 i1 j0 j1 => ⟨⟨same_cell ha fun s s0 s1 P hP => he i j i0 i1 j0 j1 s s0 s1 P (hpa P hP), same_cell hb fun s s0 s1 P hP => he i j i0 i1 j0 j1 s s0 s1 P (hpb P hP)⟩, fun P hP => ?_⟩⟩
    have := he i j i0 i1 j0 j1 0 le_rfl zero_le_one P hP
    rwa [lerp3_zero] at this
  obtain ⟨e1, e10, h1⟩ := nearF d hd
  obtain ⟨e2, e20, h2⟩ := nearB d hd
  refine ⟨min e1 e2, lt_min e10 e20, fun i i0 i1 => ?_⟩
  have i1' := lt_of_lt_of_le i1 (min_le_left _ _)
  have i2' := lt_of_lt_of_le i1 (min_le_right _ _)
  by_contra hne
  -- a solid that changes at `v` has a polygon there
  have change : ∀ {t : Tree (Poly K) (Plane K)} {S : Set (V3 K)}, Solid t S → (∀ P ∈ planes t, P ∈ ps) → ¬ (v + V3.scale (-i) d ∈ S ↔ v + V3.scale i d ∈ S) → ∃ x ∈ all t, Hull3 x.verts v := by
    intro t S ht hpt hch
    by_contra hno
    push Not at hno
    refine hch (ht.sep _ _ fun s s0 s1 => ?_)
    have e : lerp3 (v + V3.scale (-i) d) (v + V3.scale i d) s = v + V3.scale ((2 * s - 1) * i) d := by
      ext <;> simp only [lerp3, V3.add_x, V3.add_y, V3.add_z, V3.scale_x, V3.scale_y, V3.scale_z] <;> ring
    rw [e]
    rcases lt_trichotomy (2 * s - 1) 0 with hs | hs | hs
    · have := (h2 ((1 - 2 * s) * i) ((1 - 2 * s) * i) (mul_pos (by linarith) i0) (by nlinarith) (mul_pos (by linarith) i0) (by nlinarith)).2
      have ee : -((1 - 2 * s) * i) = (2 * s - 1) * i := by ring
      rw [ee] at this
      exact off_avoids ht.placed fun P hP => this P (hpt P hP)
    · have ee : v + V3.scale ((2 * s - 1) * i) d = v := by
        rw [hs]; ext <;> simp only [V3.add_x, V3.add_y, V3.add_z, V3.scale_x, V3.scale_y, V3.scale_z] <;> ring
      rw [ee]; exact hno
    · have := (h1 ((2 * s - 1) * i) ((2 * s - 1) * i) (mul_pos hs i0) (by nlinarith) (mul_pos hs i0) (by nlinarith)).2
      exact off_avoids ht.placed fun P hP => this P (hpt P hP)
  -- a polygon at `v` is in the plane
  have inP : ∀ {t : Tree (Poly K) (Plane K)}, Placed t → (∀ P ∈ planes t, P ∈ ps) → ∀ x ∈ all t, Hull3 x.verts v → ∀ u ∈ x.verts, dot3 P0.normal u = P0.w := by
    intro t ht hpt x hx hxv u hu
    obtain ⟨P, hP, h⟩ := placed_plane ht x hx
    exact (hps P (hpt P hP) (in_plane h hxv) u).1 (h u hu)
  have gen : ∀ {t : Tree (Poly K) (Plane K)}, (∀ P ∈ planes t, P ∈ ps) → ∀ x : Poly K, (∀ u ∈ x.verts, dot3 P0.normal u = P0.w) → Gen t x v := by
    intro t hpt x hx P hP hPv u hu
    exact (hps P (hpt P hP) hPv u).2 (hx u hu)
  -- directions
  have dirF : ∀ m, 0 < dot3 P0.normal m → ∃ e, 0 < e ∧ ∀ j, 0 < j → j < e →
      ((v + V3.scale i d ∈ SA ↔ v + V3.scale j m ∈ SA) ∧ (v + V3.scale i d ∈ SB ↔ v + V3.scale j m ∈ SB))
      ∧ ((v + V3.scale (-i) d ∈ SA ↔ v + V3.scale (-j) m ∈ SA) ∧ (v + V3.scale (-i) d ∈ SB ↔ v + V3.scale (-j) m ∈ SB)) := by
    intro m hm
    obtain ⟨j1, j10, k1⟩ := nearF m hm
    obtain ⟨j2, j20, k2⟩ := nearB m hm
    refine ⟨min j1 j2, lt_min j10 j20, fun j j0 jl => ?_⟩
    have jl1 := lt_of_lt_of_le jl (min_le_left _ _)
    have jl2 := lt_of_lt_of_le jl (min_le_right _ _)
    set l := min (min j1 j2) (min e1 e2) / 2 with hl
    have m0 : 0 < min (min j1 j2) (min e1 e2) := lt_min (lt_min j10 j20) (lt_min e10 e20)
    have l0 : 0 < l := half_pos m0
    have lm : l < min (min j1 j2) (min e1 e2) := half_lt_self m0
    have l1 : l < j1 := lt_of_lt_of_le lm ((min_le_left _ _).trans (min_le_left _ _))
    have l2 : l < j2 := lt_of_lt_of_le lm ((min_le_left _ _).trans (min_le_right _ _))
    have l3 : l < e1 := lt_of_lt_of_le lm ((min_le_right _ _).trans (min_le_left _ _))
    have l4 : l < e2 := lt_of_lt_of_le lm ((min_le_right _ _).trans (min_le_right _ _))
    have q1 := (h1 i l i0 i1' l0 l3).1
    have q2 := (k1 l j l0 l1 j0 jl1).1
    have q3 := (h2 i l i0 i2' l0 l4).1
    have q4 := (k2 l j l0 l2 j0 jl2).1
    exact ⟨⟨q1.1.trans q2.1, q1.2.trans q2.2⟩, ⟨q3.1.trans q4.1, q3.2.trans q4.2⟩⟩
  by_cases hA : v + V3.scale (-i) d ∈ SA ↔ v + V3.scale i d ∈ SA
  · -- the second solid changes, away from the first one
    have hfA : v + V3.scale i d ∉ SA ∧ v + V3.scale (-i) d ∉ SA := by
      constructor
      · intro h; exact hne ⟨fun _ => Or.inl h, fun _ => Or.inl (hA.2 h)⟩
      · intro h; exact hne ⟨fun _ => Or.inl (hA.1 h), fun _ => Or.inl h⟩
    have hB : ¬ (v + V3.scale (-i) d ∈ SB ↔ v + V3.scale i d ∈ SB) := by
      intro hB; apply hne; simp only [Set.mem_union, hA, hB]
    obtain ⟨x, hx, hxv⟩ := change hb hpb hB
    have hxP := inP hb.placed hpb x hx hxv
    have free : ∀ m, dot3 P0.normal m ≠ 0 → Free SA v m ∧ Free SA v (V3.scale (-1) m) := by
      intro m hm
      rcases lt_or_gt_of_ne hm with hm | hm
      · obtain ⟨e, e0, he⟩ := dirF (V3.scale (-1) m) (by rw [dot_scale']; linarith)
        refine ⟨⟨e, e0, fun t t0 t1 h => hfA.2 ((he t t0 t1).2.1.2 ?_)⟩, ⟨e, e0, fun t t0 t1 h => hfA.1 ((he t t0 t1).1.1.2 h)⟩⟩
        rw [neg, neg_neg]; exact h
      · obtain ⟨e, e0, he⟩ := dirF m hm
        refine ⟨⟨e, e0, fun t t0 t1 h => hfA.1 ((he t t0 t1).1.1.2 h)⟩, ⟨e, e0, fun t t0 t1 h => hfA.2 ((he t t0 t1).2.1.2 ?_)⟩⟩
        rw [neg] at h; exact h
    obtain ⟨f1, f2⟩ := free _ (dot_ne_zero hP0 (hb.w x hx) hxP)
    obtain ⟨y, hy, hyv⟩ := hk.right x hx v hxv (gen hpa x hxP) f1 f2
    exact hr y hy hyv
  · -- the first solid changes
    obtain ⟨x, hx, hxv⟩ := change ha hpa hA
    have hxP := inP ha.placed hpa x hx hxv
    have wx := ha.w x hx
    have hin : Inner x.verts v := by
      refine inner_of_walls wx hxv fun P hP e => ?_
      have hs := hps P (hw x hx P hP) e
      exact dot_ne_zero (walls_ok wx hP).1 wx (fun u hu => (hs u).2 (hxP u hu)) (walls_ok wx hP).2
    obtain ⟨c, c0, hc⟩ := ha.faces x hx v hin
    have esub : ∀ t, v - V3.scale t x.plane.normal = v + V3.scale (-t) x.plane.normal := by
      intro t; ext <;> simp only [V3.add_x, V3.add_y, V3.add_z, V3.sub_x, V3.sub_y, V3.sub_z, V3.scale_x, V3.scale_y, V3.scale_z] <;> ring
    simp only [esub] at hc
    have free : Free SB v x.plane.normal := by
      rcases lt_or_gt_of_ne (dot_ne_zero hP0 wx hxP) with hm | hm
      · obtain ⟨e, e0, he⟩ := dirF (V3.scale (-1) x.plane.normal) (by rw [dot_scale']; linarith)
        simp only [neg, neg_neg] at he
        have hmm := lt_min c0 e0
        set t := min c e / 2 with ht
        have t0 : 0 < t := half_pos hmm
        have t1 : t < c := lt_of_lt_of_le (half_lt_self hmm) (min_le_left _ _)
        have t2 : t < e := lt_of_lt_of_le (half_lt_self hmm) (min_le_right _ _)
        have hU : v + V3.scale i d ∈ SA := (he t t0 t2).1.1.2 (hc t t0 t1).1
        have hn : v + V3.scale (-i) d ∉ SB := fun h => hne ⟨fun _ => Or.inl hU, fun _ => Or.inr h⟩
        exact ⟨e, e0, fun t t0 t1 h => hn ((he t t0 t1).2.2.2 h)⟩
      · obtain ⟨e, e0, he⟩ := dirF x.plane.normal hm
        have hmm := lt_min c0 e0
        set t := min c e / 2 with ht
        have t0 : 0 < t := half_pos hmm
        have t1 : t < c := lt_of_lt_of_le (half_lt_self hmm) (min_le_left _ _)
        have t2 : t < e := lt_of_lt_of_le (half_lt_self hmm) (min_le_right _ _)
        have hU : v + V3.scale (-i) d ∈ SA := (he t t0 t2).2.1.2 (hc t t0 t1).1
        have hn : v + V3.scale i d ∉ SB := fun h => hne ⟨fun _ => Or.inr h, fun _ => Or.inl hU⟩
        exact ⟨e, e0, fun t t0 t1 h => hn ((he t t0 t1).1.2.2 h)⟩
    obtain ⟨y, hy, hyv⟩ := hk.left x hx v hxv (gen hpb x hxP) free
    exact hr y hy hyv

/-- Open conditions on the ends of a way that meets none of some polygons. -/
theorem open_ends (p q : V3 K) : ∀ r : List (Poly K), (∀ x ∈ r, ∀ s, 0 ≤ s → s ≤ 1 → ¬ Hull3 x.verts (lerp3 p q s)) →
    ∃ cp cq : List (Plane K), (∀ c ∈ cp, c.w < dot3 c.normal p) ∧ (∀ c ∈ cq, c.w < dot3 c.normal q)
      ∧ ∀ p' q', (∀ c ∈ cp, c.w < dot3 c.normal p') → (∀ c ∈ cq, c.w < dot3 c.normal q') → ∀ x ∈ r, ∀ s, 0 ≤ s → s ≤ 1 → ¬ Hull3 x.verts (lerp3 p' q' s)
  | [], _ => ⟨[], [], by simp, by simp, by simp⟩
  | x :: r, h => by
    obtain ⟨cp, cq, h1, h2, h3⟩ := open_ends p q r fun y hy => h y (List.mem_cons_of_mem _ hy)
    obtain ⟨n, hn⟩ := separate (h x (by simp))
    have e : ∀ a b : V3 K, -dot3 n b < dot3 (V3.scale (-1) n) a ↔ dot3 n a < dot3 n b := by
      intro a b; rw [dot_scale]; constructor <;> intro h <;> linarith
    set cx : List (Plane K) := x.verts.map fun v => ⟨V3.scale (-1) n, -dot3 n v⟩ with hcx
    have hm : ∀ a : V3 K, (∀ c ∈ cx, c.w < dot3 c.normal a) ↔ ∀ v ∈ x.verts, dot3 n a < dot3 n v := by
      intro a
      constructor
      · intro h v hv; exact (e a v).1 (h _ (List.mem_map.2 ⟨v, hv, rfl⟩))
      · intro h c hc
        obtain ⟨v, hv, rfl⟩ := List.mem_map.1 hc
        exact (e a v).2 (h v hv)
    refine ⟨cx ++ cp, cx ++ cq, ?_, ?_, fun p' q' hp' hq' => ?_⟩
    · intro c hc
      rcases List.mem_append.1 hc with hc | hc
      · exact (hm p).2 (fun v hv => (hn v hv).1) c hc
      · exact h1 c hc
    · intro c hc
      rcases List.mem_append.1 hc with hc | hc
      · exact (hm q).2 (fun v hv => (hn v hv).2) c hc
      · exact h2 c hc
    · have k1 := (hm p').1 fun c hc => hp' c (List.mem_append_left _ hc)
      have k2 := (hm q').1 fun c hc => hq' c (List.mem_append_left _ hc)
      have := h3 p' q' (fun c hc => hp' c (List.mem_append_right _ hc)) (fun c hc => hq' c (List.mem_append_right _ hc))
      intro y hy
      rcases List.mem_cons.1 hy with rfl | hy
      · exact separated fun v hv => ⟨k1 v hv, k2 v hv⟩
      · exact this y hy

/-- Open conditions on a point that is on none of some polygons, so that the point can be joined to the points that meet them. -/
theorem open_point (p : V3 K) (r : List (Poly K)) (h : ∀ x ∈ r, ¬ Hull3 x.verts p) :
    ∃ cp : List (Plane K), (∀ c ∈ cp, c.w < dot3 c.normal p) ∧ ∀ p', (∀ c ∈ cp, c.w < dot3 c.normal p') → ∀ x ∈ r, ∀ s, 0 ≤ s → s ≤ 1 → ¬ Hull3 x.verts (lerp3 p p' s) := by
  have e : ∀ s, lerp3 p p s = p := by intro s; ext <;> simp [lerp3]
  obtain ⟨cp, cq, h1, h2, h3⟩ := open_ends p p r fun x hx s _ _ => by rw [e]; exact h x hx
  exact ⟨cq, h2, fun p' hp' => h3 p p' h1 hp'⟩

/-- A way that meets no kept polygon stays inside or stays outside. -/
theorem way {a b : Tree (Poly K) (Plane K)} {SA SB : Set (V3 K)} (ha : Solid a SA) (hb : Solid b SB) {r : List (Poly K)} (hk : Keeps a b SA SB r) {p q : V3 K}
    (hp : ∀ x, x ∈ all a ∨ x ∈ all b → ¬ Hull3 x.verts p) (hq : ∀ x, x ∈ all a ∨ x ∈ all b → ¬ Hull3 x.verts q)
    (h : ∀ s, 0 ≤ s → s ≤ 1 → ∀ x ∈ r, ¬ Hull3 x.verts (lerp3 p q s)) : p ∈ SA ∪ SB ↔ q ∈ SA ∪ SB := by
  set ps : List (Plane K) := planes a ++ (planes b ++ (all a).flatMap walls) with hps
  have hpa : ∀ P ∈ planes a, P ∈ ps := fun P hP => List.mem_append_left _ hP
  have hpb : ∀ P ∈ planes b, P ∈ ps := fun P hP => List.mem_append_right _ (List.mem_append_left _ hP)
  have hw : ∀ x ∈ all a, ∀ P ∈ walls x, P ∈ ps := fun x hx P hP => List.mem_append_right _ (List.mem_append_right _ (List.mem_flatMap.2 ⟨x, hx, hP⟩))
  have hok : ∀ P ∈ ps, P.normal ≠ 0 := by
    intro P hP
    rcases List.mem_append.1 hP with hP | hP
    · exact ok_planes ha.k P hP
    rcases List.mem_append.1 hP with hP | hP
    · exact ok_planes hb.k P hP
    · obtain ⟨x, hx, hP⟩ := List.mem_flatMap.1 hP
      exact (walls_ok (ha.w x hx) hP).1
  obtain ⟨cp, cq, o1, o2, o3⟩ := open_ends p q r fun x hx s s0 s1 => h s s0 s1 x hx
  obtain ⟨dp, op1, op2⟩ := open_point p (all a ++ all b) fun x hx => hp x (List.mem_append.1 hx)
  obtain ⟨dq, oq1, oq2⟩ := open_point q (all a ++ all b) fun x hx => hq x (List.mem_append.1 hx)
  have app : ∀ {l m : List (Plane K)} {y : V3 K}, (∀ c ∈ l, c.w < dot3 c.normal y) → (∀ c ∈ m, c.w < dot3 c.normal y) → ∀ c ∈ l ++ m, c.w < dot3 c.normal y := by
    intro l m y h1 h2 c hc
    exact (List.mem_append.1 hc).elim (h1 c) (h2 c)
  obtain ⟨p', p1, p2⟩ := move_off p (cp ++ dp) ps (app o1 op1) hok
  obtain ⟨q', q1, q2, q3⟩ := general hok p2 q (cq ++ dq) (app o2 oq1)
  have hr := o3 p' q' (fun c hc => p1 c (List.mem_append_left _ hc)) (fun c hc => q1 c (List.mem_append_left _ hc))
  have sp := op2 p' fun c hc => p1 c (List.mem_append_right _ hc)
  have sq := oq2 q' fun c hc => q1 c (List.mem_append_right _ hc)
  have ep : p ∈ SA ∪ SB ↔ p' ∈ SA ∪ SB := or_congr (ha.sep p p' fun s s0 s1 x hx => sp x (List.mem_append_left _ hx) s s0 s1) (hb.sep p p' fun s s0 s1 x hx => sp x (List.mem_append_right _ hx) s s0 s1)
  have eq : q ∈ SA ∪ SB ↔ q' ∈ SA ∪ SB := or_congr (ha.sep q q' fun s s0 s1 x hx => sq x (List.mem_append_left _ hx) s s0 s1) (hb.sep q q' fun s s0 s1 x hx => sq x (List.mem_append_right _ hx) s s0 s1)
  rw [ep, eq]
  obtain ⟨R, hR⟩ := crossings ps p' q' p2
  have e0 : lerp3 p' q' 0 = p' := lerp3_zero p' q'
  have e1 : lerp3 p' q' 1 = q' := by ext <;> simp [lerp3]
  have key := along R (fun s => lerp3 p' q' s ∈ SA ∪ SB) ?_ ?_ ?_ ?_
  · simpa only [e0, e1] using key
  · intro s u s0 su u1 hRs
    have hoff : ∀ t, 0 ≤ t → t ≤ 1 → ∀ P ∈ ps, dot3 P.normal (lerp3 (lerp3 p' q' s) (lerp3 p' q' u) t) ≠ P.w := by
      intro t t0 t1 P hP hh
      have e : lerp3 (lerp3 p' q' s) (lerp3 p' q' u) t = lerp3 p' q' (s + t * (u - s)) := by
        ext <;> simp only [lerp3] <;> ring
      rw [e] at hh
      exact hRs _ ((hR _).2 ⟨P, hP, hh⟩) ⟨by nlinarith, by nlinarith⟩
    exact or_congr (same_cell ha fun t t0 t1 P hP => hoff t t0 t1 P (hpa P hP)) (same_cell hb fun t t0 t1 P hP => hoff t t0 t1 P (hpb P hP))
  · intro u hu u0 u1
    obtain ⟨P, hP, hPv⟩ := (hR u).1 hu
    set v := lerp3 p' q' u with hv
    have hps' : ∀ P' ∈ ps, dot3 P'.normal v = P'.w → SamePlane P' P := fun P' hP' h => q3 P' hP' P hP u h hPv
    have hrv : ∀ x ∈ r, ¬ Hull3 x.verts v := fun x hx => hr x hx u u0.le u1.le
    have hd : dot3 P.normal (q' - p') ≠ 0 := by
      intro h0
      rw [dot_sub'] at h0
      rw [hv, dot_lerp] at hPv
      have := p2 P hP
      exact this (by linear_combination hPv - u * h0)
    have sub : ∀ e : K, lerp3 p' q' (u - e) = v + V3.scale (-e) (q' - p') := by
      intro e; rw [sub_eq_add_neg, lerp_add]
    simp only [sub, lerp_add, ← hv]
    rcases lt_or_gt_of_ne hd with hd | hd
    · obtain ⟨e, e0, he⟩ := crossing ha hb hk hpa hpb hw (P0 := P.flip) (v := v) (d := q' - p')
        (by
          intro hz
          apply hok P hP
          have hx := congrArg V3.x hz
          have hy := congrArg V3.y hz
          have hz := congrArg V3.z hz
          simp only [Plane.flip, V3.zero_x, V3.zero_y, V3.zero_z, neg_eq_zero] at hx hy hz
          ext <;> assumption)
        (by rw [dot_flip, hPv]; simp [Plane.flip])
        (fun P' hP' h y => (hps' P' hP' h y).trans (by rw [dot_flip]; simp [Plane.flip]))
        (by rw [dot_flip]; linarith) hrv
      exact ⟨e, e0, he⟩
    · exact crossing ha hb hk hpa hpb hw (hok P hP) hPv hps' hd hrv
  · intro h0
    obtain ⟨P, hP, h⟩ := (hR 0).1 h0
    rw [e0] at h
    exact p2 P hP h
  · intro h1
    obtain ⟨P, hP, h⟩ := (hR 1).1 h1
    rw [e1] at h
    exact q2 P hP h

end Verif.Csg
