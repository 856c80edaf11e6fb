import Verif.Proofs.Simplify3
import Verif.Proofs.Polygon
import Verif.Proofs.Hull3
import Verif.Spec.Simplify3
/- Corners at which a polygon does not turn have no part in its vector area. -/
namespace Verif.Simplify3
open Verif Verif.Geom
variable {K : Type} [Field K] [LinearOrder K] [IsStrictOrderedRing K]

theorem cross_zero_iff {a b : V3 K} : cross3 a b = 0 ↔ a.y * b.z - a.z * b.y = 0 ∧ a.z * b.x - a.x * b.z = 0 ∧ a.x * b.y - a.y * b.x = 0 :=
  ⟨fun h => ⟨congrArg V3.x h, congrArg V3.y h, congrArg V3.z h⟩, fun ⟨h1, h2, h3⟩ => V3.ext h1 h2 h3⟩

theorem cross_trans {d s t : V3 K} (hd : d ≠ 0) (hs : cross3 s d = 0) (ht : cross3 t d = 0) : cross3 s t = 0 := by
  have hd' : dot3 d d ≠ 0 := fun h => hd (Hull3.dot_self_zero h)
  have h := fun y => Hull3.parallel_zero (y := y) hd' hs ht
  have hx := h ⟨1, 0, 0⟩
  have hy := h ⟨0, 1, 0⟩
  have hz := h ⟨0, 0, 1⟩
  simp only [dot3, mul_one, mul_zero, add_zero, zero_add] at hx hy hz
  exact V3.ext hx hy hz

theorem cross_comm_zero {s t : V3 K} (h : cross3 s t = 0) : cross3 t s = 0 := by
  obtain ⟨h1, h2, h3⟩ := cross_zero_iff.1 h
  exact cross_zero_iff.2 ⟨by linear_combination -h1, by linear_combination -h2, by linear_combination -h3⟩

theorem sub_ne_zero3 {a b : V3 K} (h : a ≠ b) : b - a ≠ 0 := fun e => h (V3.ext (sub_eq_zero.1 (congrArg V3.x e)).symm (sub_eq_zero.1 (congrArg V3.y e)).symm
  (sub_eq_zero.1 (congrArg V3.z e)).symm)

/-- The area under a path. -/
def pathArea (u : V3 K) (l : List (V3 K)) : K := ((pairs l).map fun s => dot3 u (cross3 s.1 s.2)).sum

theorem pathArea_cons (u a b : V3 K) (l : List (V3 K)) : pathArea u (a :: b :: l) = dot3 u (cross3 a b) + pathArea u (b :: l) := by
  simp [pathArea, pairs_cons]

theorem pathArea_one (u a : V3 K) : pathArea u [a] = 0 := by simp [pathArea, pairs]

theorem areaAlong_path (u a : V3 K) (l : List (V3 K)) : areaAlong u (a :: l) = pathArea u (a :: (l ++ [a])) := by
  rw [areaAlong, dirSides_pairs, pathArea]

theorem areaAlong_rotate (u : V3 K) (l : List (V3 K)) (n : Nat) : areaAlong u (l.rotate n) = areaAlong u l := by
  rw [areaAlong, dirSides_rotate, areaAlong]
  exact ((List.rotate_perm _ n).map _).sum_eq

theorem areaAlong_isRotated {u : V3 K} {l l' : List (V3 K)} (h : l ~r l') : areaAlong u l = areaAlong u l' := by
  obtain ⟨n, rfl⟩ := h
  rw [areaAlong_rotate]

/-- The end of a path and the points on the way at which it turns. -/
def keepInner (t : V3 K → V3 K → V3 K → Bool) : V3 K → List (V3 K) → List (V3 K)
  | _, [] => []
  | _, [e] => [e]
  | a, b :: c :: r => if t a b c then b :: keepInner t b (c :: r) else keepInner t b (c :: r)

/-- Three points after one another on a path. -/
def lin3 {α : Type} : List α → List (α × α × α)
  | a :: b :: c :: r => (a, b, c) :: lin3 (b :: c :: r)
  | _ => []

theorem keepInner_area (u : V3 K) {t : V3 K → V3 K → V3 K → Bool} : ∀ (r : List (V3 K)) (q a b : V3 K), (∀ x ∈ lin3 (a :: b :: r), t x.1 x.2.1 x.2.2 = false → cross3 (x.2.1 - x.1) (x.2.2 - x.2.1) = 0) →
    (∀ x ∈ pairs (a :: b :: r), x.1 ≠ x.2) → cross3 (a - q) (b - a) = 0 →
    pathArea u (q :: keepInner t a (b :: r)) = dot3 u (cross3 q a) + pathArea u (a :: b :: r)
  | [], q, a, b, _, _, h => by
    obtain ⟨h1, h2, h3⟩ := cross_zero_iff.1 h
    rw [keepInner, pathArea_cons, pathArea_cons, pathArea_one]
    simp only [dot3, cross3, V3.sub_x, V3.sub_y, V3.sub_z] at h1 h2 h3 ⊢
    linear_combination (-u.x) * h1 - u.y * h2 - u.z * h3
  | c :: r, q, a, b, hl, hp, h => by
    have hl' : ∀ x ∈ lin3 (b :: c :: r), t x.1 x.2.1 x.2.2 = false → cross3 (x.2.1 - x.1) (x.2.2 - x.2.1) = 0 := fun x hx => hl x (by rw [lin3]; exact List.mem_cons_of_mem _ hx)
    have hp' : ∀ x ∈ pairs (b :: c :: r), x.1 ≠ x.2 := fun x hx => hp x (by rw [pairs_cons]; exact List.mem_cons_of_mem _ hx)
    have hab : a ≠ b := hp (a, b) (by rw [pairs_cons]; exact List.mem_cons_self)
    rw [keepInner]
    obtain ⟨h1, h2, h3⟩ := cross_zero_iff.1 h
    split
    · rw [pathArea_cons, pathArea_cons]
      rw [keepInner_area u r b b c hl' hp' (V3.ext (by simp [cross3]) (by simp [cross3]) (by simp [cross3]))]
      simp only [dot3, cross3, V3.sub_x, V3.sub_y, V3.sub_z] at h1 h2 h3 ⊢
      linear_combination (-u.x) * h1 - u.y * h2 - u.z * h3
    · next ht =>
      have hc : cross3 (b - a) (c - b) = 0 := hl (a, b, c) (by rw [lin3]; exact List.mem_cons_self) (by simpa using ht)
      have hq : cross3 (b - q) (b - a) = 0 := by
        simp only [V3.sub_x, V3.sub_y, V3.sub_z] at h1 h2 h3
        refine cross_zero_iff.2 ⟨?_, ?_, ?_⟩ <;> simp only [V3.sub_x, V3.sub_y, V3.sub_z]
        · linear_combination h1
        · linear_combination h2
        · linear_combination h3
      have := cross_trans (sub_ne_zero3 hab) hq (cross_comm_zero hc)
      rw [keepInner_area u r q b c hl' hp' this, pathArea_cons u a b]
      simp only [dot3, cross3, V3.sub_x, V3.sub_y, V3.sub_z] at h1 h2 h3 ⊢
      linear_combination (-u.x) * h1 - u.y * h2 - u.z * h3

theorem keepInner_end (t : V3 K → V3 K → V3 K → Bool) : ∀ (r : List (V3 K)) (a e : V3 K), ∃ k, keepInner t a (r ++ [e]) = k ++ [e]
  | [], a, e => ⟨[], rfl⟩
  | [b], a, e => by
    simp only [List.cons_append, List.nil_append, keepInner]
    split
    · exact ⟨[b], rfl⟩
    · exact ⟨[], rfl⟩
  | b :: c :: r, a, e => by
    obtain ⟨k, hk⟩ := keepInner_end t (c :: r) b e
    simp only [List.cons_append, keepInner] at hk ⊢
    rw [hk]
    split
    · exact ⟨b :: k, rfl⟩
    · exact ⟨k, rfl⟩

theorem kept_lin {t : V3 K → V3 K → V3 K → Bool} : ∀ (r : List (V3 K)) (a e x : V3 K), t ((a :: r).getLast (by simp)) e x = true →
    (lin3 (a :: (r ++ [e, x]))).filterMap (fun x => if t x.1 x.2.1 x.2.2 then some x.2.1 else none) = keepInner t a (r ++ [e])
  | [], a, e, x, h => by
    simp only [List.getLast_singleton] at h
    simp [lin3, keepInner, h]
  | [b], a, e, x, h => by
    have := kept_lin [] b e x (by simpa using h)
    simp only [List.nil_append, List.cons_append, lin3, keepInner, List.filterMap_cons] at this ⊢
    rw [this]
    cases t a b e <;> simp
  | b :: c :: r, a, e, x, h => by
    have := kept_lin (c :: r) b e x (by simpa using h)
    simp only [List.cons_append, lin3, keepInner, List.filterMap_cons] at this ⊢
    rw [this]
    cases t a b c <;> simp

theorem lin3_zip {α : Type} : ∀ l : List α, lin3 l = l.zip (l.tail.zip l.tail.tail)
  | [] => rfl
  | [_] => rfl
  | [_, _] => rfl
  | a :: b :: c :: r => by rw [lin3, lin3_zip (b :: c :: r)]; simp

theorem triples_lin {α : Type} (a b : α) (r : List α) : triples (a :: b :: r) = lin3 (a :: (b :: r ++ [a, b])) := by
  rw [triples, lin3_zip]
  apply List.ext_getElem
  · simp
  · intro i h1 h2
    have hi : i < r.length + 2 := by
      simp only [List.length_zip, List.length_cons, List.length_rotate] at h1
      omega
    simp only [List.getElem_zip, List.cons_append, List.tail_cons, Prod.mk.injEq]
    refine ⟨?_, ?_, ?_⟩
    · have : a :: b :: (r ++ [a, b]) = (a :: b :: r) ++ [a, b] := by simp
      simp only [this]
      rw [List.getElem_append_left]
    · have e : (a :: b :: r).rotate 1 = b :: (r ++ [a]) := by simp
      have : b :: (r ++ [a, b]) = (b :: (r ++ [a])) ++ [b] := by simp
      simp only [e, this]
      rw [List.getElem_append_left]
    · have e : (a :: b :: r).rotate 2 = r ++ [a, b] := by
        rw [show (2 : Nat) = 1 + 1 from rfl, ← List.rotate_rotate]
        simp
      simp only [e]

theorem triples_rotate {α : Type} (l : List α) (n : Nat) : triples (l.rotate n) = (triples l).rotate n := by
  unfold triples
  rw [List.rotate_rotate, List.rotate_rotate, Nat.add_comm n 1, Nat.add_comm n 2, ← List.rotate_rotate, ← List.rotate_rotate]
  simp only [List.zip]
  rw [List.zipWith_rotate_distrib, List.zipWith_rotate_distrib]
  · simp
  · simp

theorem filterMap_rotate {α β : Type} (f : α → Option β) (l : List α) (n : Nat) : (l.rotate n).filterMap f ~r l.filterMap f := by
  rcases l with _ | ⟨a, l⟩
  · simp
  · rw [List.rotate_eq_drop_append_take_mod, List.filterMap_append]
    conv_rhs => rw [← List.take_append_drop (n % (a :: l).length) (a :: l), List.filterMap_append]
    exact List.isRotated_append

/-- Taking out corners at which a closed polygon does not turn leaves its vector area as it was. -/
theorem keptBy_area (u : V3 K) {t : V3 K → V3 K → V3 K → Bool} {w : List (V3 K)} (ht : ∀ x ∈ triples w, t x.1 x.2.1 x.2.2 = false → cross3 (x.2.1 - x.1) (x.2.2 - x.2.1) = 0)
    (hne : ∀ x ∈ dirSides w, x.1 ≠ x.2) (hk : keptBy t w ≠ []) (hlen : 2 ≤ w.length) : areaAlong u (keptBy t w) = areaAlong u w := by
  obtain ⟨y, hy⟩ := List.exists_mem_of_ne_nil _ hk
  obtain ⟨x, hx, he⟩ := List.mem_filterMap.1 hy
  have hkx : t x.1 x.2.1 x.2.2 = true := by
    by_contra h
    rw [if_neg h] at he
    cases he
  obtain ⟨j, hj, ej⟩ := List.getElem_of_mem hx
  have hjw : j < w.length := by simpa [triples] using hj
  -- turn the polygon so that the kept corner comes first
  obtain ⟨v, b, r, hv⟩ : ∃ v b r, w.rotate (j + 1) = v :: b :: r := by
    have := List.length_rotate w (j + 1)
    rcases h : w.rotate (j + 1) with _ | ⟨v, _ | ⟨b, r⟩⟩
    · rw [h] at this; simp at this; omega
    · rw [h] at this; simp at this; omega
    · exact ⟨v, b, r, rfl⟩
  have htr := triples_rotate w (j + 1)
  rw [hv, triples_lin] at htr
  have hrot : keptBy t (w.rotate (j + 1)) ~r keptBy t w := by
    unfold keptBy
    rw [triples_rotate]
    exact filterMap_rotate _ _ _
  have hlast : (lin3 (v :: (b :: r ++ [v, b]))).getLast? = some x := by
    have hl : (triples w).length = w.length := by simp [triples]
    rw [htr, List.getLast?_eq_getElem?, List.length_rotate, List.getElem?_rotate (by omega), ← ej, hl]
    have : (w.length - 1 + (j + 1)) % w.length = j := by
      rw [show w.length - 1 + (j + 1) = j + w.length by omega, Nat.add_mod_right, Nat.mod_eq_of_lt hjw]
    rw [this, List.getElem?_eq_getElem hj]
  have lin_last : ∀ (r : List (V3 K)) (a e x : V3 K), (lin3 (a :: (r ++ [e, x]))).getLast? = some ((a :: r).getLast (by simp), e, x) := by
    intro r
    induction r with
    | nil => intro a e x; simp [lin3]
    | cons c r ih =>
      intro a e x
      have := ih c e x
      rcases r with _ | ⟨d, r⟩
      · simp only [List.nil_append, List.cons_append, lin3] at this ⊢
        simp
      · simp only [List.cons_append] at this ⊢
        rw [lin3, List.getLast?_cons_of_ne_nil, this]
        · simp
        · intro h
          rw [h] at this
          cases this
  rw [lin_last] at hlast
  have hxe := Option.some.inj hlast
  have hkeep : keptBy t (v :: b :: r) = keepInner t v (b :: r ++ [v]) := by
    unfold keptBy
    rw [triples_lin]
    refine kept_lin (b :: r) v v b ?_
    rw [← hxe] at hkx
    exact hkx
  rw [← areaAlong_isRotated hrot, hv, hkeep, ← areaAlong_rotate u w (j + 1), hv, areaAlong_path]
  have hlin : ∀ y ∈ lin3 (v :: b :: (r ++ [v])), t y.1 y.2.1 y.2.2 = false → cross3 (y.2.1 - y.1) (y.2.2 - y.2.1) = 0 := by
    intro y hy
    refine ht y ?_
    have : y ∈ lin3 (v :: (b :: r ++ [v, b])) := by
      have h : ∀ (l : List (V3 K)) (z : V3 K), ∀ y ∈ lin3 l, y ∈ lin3 (l ++ [z]) := by
        intro l
        induction l with
        | nil => intro z y hy; simp [lin3] at hy
        | cons a l ih =>
          intro z y hy
          rcases l with _ | ⟨b, _ | ⟨c, l⟩⟩
          · simp [lin3] at hy
          · simp [lin3] at hy
          · simp only [List.cons_append, lin3, List.mem_cons] at hy ⊢
            rcases hy with hy | hy
            · exact .inl hy
            · exact .inr (ih z y hy)
      have := h _ b y hy
      simpa using this
    rw [htr] at this
    exact List.mem_rotate.1 this
  have hpairs : ∀ y ∈ pairs (v :: b :: (r ++ [v])), y.1 ≠ y.2 := by
    intro y hy
    have : y ∈ dirSides (v :: b :: r) := by rw [dirSides_pairs]; exact hy
    rw [← hv, dirSides_rotate, List.mem_rotate] at this
    exact hne y this
  have key := keepInner_area u (r ++ [v]) v v b hlin hpairs (V3.ext (by simp [cross3]) (by simp [cross3]) (by simp [cross3]))
  obtain ⟨k, hk'⟩ := keepInner_end t (b :: r) v v
  rw [List.cons_append] at hk' ⊢
  rw [hk'] at key ⊢
  have e1 : areaAlong u (k ++ [v]) = areaAlong u (v :: k) := areaAlong_isRotated (List.isRotated_append (l := k) (l' := [v]))
  rw [e1, areaAlong_path, key]
  have : dot3 u (cross3 v v) = 0 := by simp only [dot3, cross3]; ring
  rw [this, zero_add]
end Verif.Simplify3
