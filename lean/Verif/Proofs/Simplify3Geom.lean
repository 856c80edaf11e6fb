import Verif.Proofs.Simplify3Area
import Verif.Proofs.Simplify3Rim
/- Vector areas of flat polygons. -/
namespace Verif.Simplify3
open Verif Verif.Mesh Verif.Internal Verif.Geom
variable {K : Type} [Field K] [LinearOrder K] [IsStrictOrderedRing K]

/-- A polygon as a fan of triangles. -/
def fan (u a : V3 K) (l : List (V3 K)) : K := ((pairs l).map fun s => dot3 u (cross3 (s.1 - a) (s.2 - a))).sum

theorem fan_path (u a : V3 K) : ∀ (l : List (V3 K)) (b : V3 K), pathArea u (b :: (l ++ [a])) = fan u a (b :: l) + dot3 u (cross3 b a)
  | [], b => by simp [pathArea, fan, pairs]
  | c :: l, b => by
    rw [List.cons_append, pathArea_cons, fan_path u a l c]
    simp only [fan, pairs_cons, List.map_cons, List.sum_cons]
    simp only [dot3, cross3, V3.sub_x, V3.sub_y, V3.sub_z]
    ring

theorem areaAlong_fan (u a : V3 K) (l : List (V3 K)) : areaAlong u (a :: l) = fan u a l := by
  rw [areaAlong_path]
  rcases l with _ | ⟨b, l⟩
  · rw [List.nil_append, pathArea_cons, pathArea_one]
    simp only [fan, pairs, dot3, cross3, List.tail_nil, List.zip_nil_left, List.map_nil, List.sum_nil]
    ring
  · rw [List.cons_append, pathArea_cons, fan_path]
    simp only [dot3, cross3]
    ring

theorem areaAlong_reverse (u : V3 K) (l : List (V3 K)) : areaAlong u l.reverse = - areaAlong u l := by
  rw [areaAlong, ((dirSides_reverse l).map _).sum_eq, List.map_map, areaAlong]
  generalize dirSides l = s
  induction s with
  | nil => simp
  | cons a s ih =>
    rw [List.map_cons, List.sum_cons, ih, List.map_cons, List.sum_cons]
    simp only [Function.comp, Prod.fst_swap, Prod.snd_swap, dot3, cross3]
    ring

theorem areaAlong_sub (u v : V3 K) (l : List (V3 K)) : areaAlong (u - v) l = areaAlong u l - areaAlong v l := by
  unfold areaAlong
  generalize dirSides l = s
  induction s with
  | nil => simp
  | cons a s ih =>
    rw [List.map_cons, List.sum_cons, ih, List.map_cons, List.sum_cons, List.map_cons, List.sum_cons]
    simp only [dot3, V3.sub_x, V3.sub_y, V3.sub_z]
    ring

theorem areaAlong_scale {u v : V3 K} {s : K} (h : ∀ x, dot3 v x = s * dot3 u x) (l : List (V3 K)) : areaAlong v l = s * areaAlong u l := by
  unfold areaAlong
  rw [← List.sum_map_mul_left]
  exact congrArg List.sum (List.map_congr_left fun x _ => h _)

/-- Vectors with the same direction. -/
theorem same_direction {n m : V3 K} (hn : n ≠ 0) (h : cross3 n m = 0) : ∀ x, dot3 m x = dot3 n m / dot3 n n * dot3 n x := by
  intro x
  have hn' : dot3 n n ≠ 0 := fun e => hn (Hull3.dot_self_zero e)
  obtain ⟨h1, h2, h3⟩ := cross_zero_iff.1 h
  field_simp
  simp only [dot3] at hn' ⊢
  linear_combination (x.z * n.y - x.y * n.z) * h1 + (-(x.z * n.x) + x.x * n.z) * h2 + (x.y * n.x - x.x * n.y) * h3

theorem dot_pos {n : V3 K} (h : n ≠ 0) : 0 < dot3 n n := lt_of_le_of_ne (Hull3.dot_self_nonneg n) fun e => h (Hull3.dot_self_zero e.symm)

/-- The cross product of two vectors in a plane is parallel to its normal. -/
theorem cross_in_plane {n a b : V3 K} (ha : dot3 n a = 0) (hb : dot3 n b = 0) : cross3 n (cross3 a b) = 0 := by
  simp only [dot3] at ha hb
  refine cross_zero_iff.2 ⟨?_, ?_, ?_⟩ <;> simp only [cross3]
  · linear_combination a.x * hb - b.x * ha
  · linear_combination a.y * hb - b.y * ha
  · linear_combination a.z * hb - b.z * ha

theorem dot_sub (n a b : V3 K) : dot3 n (a - b) = dot3 n a - dot3 n b := by
  simp only [dot3, V3.sub_x, V3.sub_y, V3.sub_z]; ring

/-- A flat polygon has no area along vectors in its plane. -/
theorem flat_area {n : V3 K} (hn : n ≠ 0) {c : K} {l : List (V3 K)} (hl : ∀ p ∈ l, dot3 n p = c) {u : V3 K} (hu : dot3 n u = 0) : areaAlong u l = 0 := by
  rcases l with _ | ⟨a, l⟩
  · simp [areaAlong, dirSides]
  · rw [areaAlong_fan, fan]
    refine List.sum_eq_zero fun x hx => ?_
    obtain ⟨s, hs, rfl⟩ := List.mem_map.1 hx
    have h1 := (List.of_mem_zip hs).1
    have h2 : s.2 ∈ l := List.mem_of_mem_tail (List.of_mem_zip hs).2
    have e : ∀ p ∈ l, dot3 n (p - a) = 0 := fun p hp => by rw [dot_sub, hl p (List.mem_cons_of_mem _ hp), hl a List.mem_cons_self, sub_self]
    have := same_direction hn (cross_in_plane (e _ h1) (e _ h2)) u
    have sym : ∀ a b : V3 K, dot3 a b = dot3 b a := fun a b => by simp only [dot3]; ring
    rw [sym, this, hu, mul_zero]

theorem pairs_sublist {α : Type} {x y : α} {l : List α} (h : (x, y) ∈ pairs l) : [x, y].Sublist l := by
  obtain ⟨X, Y, rfl⟩ := mem_pairs h
  exact (List.Sublist.cons_cons x (List.Sublist.cons_cons y (List.nil_sublist Y))).trans (List.sublist_append_right X _)

theorem proper_area {l : List (V3 K)} (h : Proper l) : 0 < areaAlong (firstNormal l) l := by
  rcases l with _ | ⟨a, _ | ⟨b, _ | ⟨c, l⟩⟩⟩
  · have := h.three; simp at this
  · have := h.three; simp at this
  · have := h.three; simp at this
  · rw [areaAlong_fan, fan, pairs_cons, List.map_cons, List.sum_cons]
    have h1 : dot3 (firstNormal (a :: b :: c :: l)) (cross3 (b - a) (c - a)) = dot3 (firstNormal (a :: b :: c :: l)) (firstNormal (a :: b :: c :: l)) := by
      simp [firstNormal]
    dsimp only
    rw [h1]
    refine add_pos_of_pos_of_nonneg (dot_pos h.bent) (List.sum_nonneg fun x hx => ?_)
    obtain ⟨s, hs, rfl⟩ := List.mem_map.1 hx
    exact h.convex a s.1 s.2 (((pairs_sublist hs).cons b).cons_cons a)

theorem mem_turns [DecidableEq K] {w : List (V3 K)} {p : V3 K} (h : p ∈ turns w) : p ∈ w := by
  obtain ⟨x, hx, he⟩ := List.mem_filterMap.1 h
  split at he
  · cases he
    exact List.mem_rotate.1 (List.of_mem_zip (List.of_mem_zip hx).2).1
  · cases he
end Verif.Simplify3
