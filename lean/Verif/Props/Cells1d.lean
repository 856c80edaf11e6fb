import Verif.Proofs.Cells1d
import Mathlib.Data.List.Sort
/- C95: the cells of generators on a line. -/
namespace Verif.Cells1d
open Verif Verif.Geom Verif.Mesh

/-- For any number of different generators on a line inside the circle, in any order, and for whatever order the sort gives them: there is one convex counterclockwise cell around each generator, with corners on the circle,
none of them nearer to another generator; every node is used; and neighbours share one side, in opposite directions. Assertions do not fire. -/
theorem C95_cells (dbg : Bool) {gens : List (V2 ℝ)} {c : V2 ℝ} {radius : ℝ} {ps : List IP} (h : OnLine gens c radius) (hs : IsSort gens ps) :
    ∃ cells nodes, constructCells1d dbg c radius ps = .ok (cells, nodes) ∧ GoodCells gens c radius cells nodes ∧ Shared gens cells := by
  obtain ⟨o, e, t, I, F⟩ := frame_of h hs
  exact good_of F dbg h

open Classical in
/-- The generators always have a sorted order, so `C95_cells` speaks about every set of generators. -/
theorem C95_sort (gens : List (V2 ℝ)) : ∃ ps, IsSort gens ps := by
  let r : IP → IP → Prop := fun a b => ¬ before b.1 a.1
  have : Std.Total r := ⟨fun a b => by
    by_contra hc
    have h1 := not_not.mp (not_or.mp hc).1
    have h2 := not_not.mp (not_or.mp hc).2
    rcases h1 with l | ⟨l, l'⟩ <;> rcases h2 with q | ⟨q, q'⟩ <;> linarith⟩
  have : IsTrans IP r := ⟨fun a b c h1 h2 => by
    simp only [r, before, not_or, not_lt, not_and] at *
    refine ⟨h1.1.trans h2.1, fun e => ?_⟩
    have e1 : b.1.x = a.1.x := le_antisymm (by linarith [h2.1]) h1.1
    have e2 : c.1.x = b.1.x := by rw [e, e1]
    exact (h1.2 e1).trans (h2.2 e2)⟩
  exact ⟨gens.zipIdx.insertionSort r, List.perm_insertionSort r _, List.pairwise_insertionSort r _⟩

/-- For different generators it is the only one: the result does not depend on the sort. -/
theorem C95_sorted {gens : List (V2 ℝ)} {c : V2 ℝ} {radius : ℝ} {ps ps' : List IP} (h : OnLine gens c radius) (hs : IsSort gens ps) (hs' : IsSort gens ps') : ps = ps' := by
  have tr : ∀ {l : List IP}, IsSort gens l → l.Pairwise fun a b => before a.1 b.1 := fun {l} hl => by
    obtain ⟨o, e, t, I, F⟩ := frame_of h hl
    have nd : (gens : List (V2 ℝ)).Nodup := h.apart.imp fun {p q} hpq e => by
      have z : d2 p q = 0 := by rw [e]; simp only [d2]; ring
      rw [z] at hpq
      have : (0 : ℝ) < 1 / 10 ^ 200 := by positivity
      linarith
    rw [List.pairwise_iff_getElem]
    intro i j hi hj hij
    have o := List.pairwise_iff_getElem.mp hl.2 i j hi hj hij
    have ne : (l[i]).1 ≠ (l[j]).1 := fun e => by
      have a := F.get i hi; have b := F.get j hj
      have ga := F.gen i hi; have gb := F.gen j hj
      rw [List.getElem?_eq_getElem hi] at a; rw [List.getElem?_eq_getElem hj] at b
      rw [Option.some.inj a, Option.some.inj b] at e
      have e' : X _ _ (t i) 0 = X _ _ (t j) 0 := e
      rw [e', ← gb] at ga
      have := (List.getElem?_inj (by rw [← F.len]; exact F.lt hi) nd).mp ga
      have := F.inj i j hi hj this
      omega
    simp only [before, not_or, not_lt, not_and] at o ⊢
    rcases o.1.lt_or_eq with l' | l'
    · exact Or.inl l'
    · exact Or.inr ⟨l', lt_of_le_of_ne (o.2 l'.symm) fun ey => ne (by ext <;> assumption)⟩
  refine (hs.1.trans hs'.1.symm).eq_of_pairwise (fun a b _ _ h1 h2 => ?_) (tr hs) (tr hs')
  simp only [before] at h1 h2
  rcases h1 with l | ⟨l, l'⟩ <;> rcases h2 with r | ⟨r, r'⟩ <;> exfalso <;> linarith

/-- One generator, or none: an element past the end is read. -/
theorem C95_few_fails (dbg : Bool) {gens : List (V2 ℝ)} {c : V2 ℝ} {radius : ℝ} {ps : List IP} (hs : IsSort gens ps) (h : gens.length < 2) : constructCells1d dbg c radius ps = .ub := by
  have len : ps.length = gens.length := by rw [hs.1.length_eq]; simp
  match ps, len with
  | [], _ => rfl
  | [a], _ => rfl
  | a :: b :: l, len => simp only [List.length_cons] at len; omega

theorem direction_self (p : V2 ℝ) : direction p p = 0 := by
  unfold direction unitVector2
  ext
  · simp [V2.div_x]
  · simp [V2.div_y]

open Classical in
/-- The same generator twice: the assertion on the ray's direction fires; without assertions the ends of the face between the two are both the generator itself. -/
theorem C95_repeated_fails {p c : V2 ℝ} {radius : ℝ} {i j : Nat} {rest : List IP} (hr : 0 ≤ radius) (hin : d2 p c ≤ radius ^ 2) :
    constructCells1d true c radius ((p, i) :: (p, j) :: rest) = .abort ∧ faceEnds false c radius p p = .ok (p, p) := by
  have nd : ¬ distance2 p c > radius := by
    unfold distance2
    rw [gt_iff_lt, not_lt]
    apply Real.sqrt_le_iff.mpr
    refine ⟨hr, ?_⟩
    simp only [d2] at hin ⊢
    linarith
  have z : ∀ n : V2 ℝ, n.x = 0 → n.y = 0 → rayCircle false p n c radius tol = .ok p := fun n hx hy => by
    unfold rayCircle
    rw [if_neg nd]
    simp only [Res.bind_eq, Res.assert_release, Res.bind_ok, hx, hy, mul_zero, add_zero]
    split_ifs
    · rfl
    · rfl
  constructor
  · unfold constructCells1d firstCell
    simp only [Res.bind_eq]
    rw [show rd ((p, i) :: (p, j) :: rest) 0 = .ok (p, i) from rfl, Res.bind_ok, show rd ((p, i) :: (p, j) :: rest) 1 = .ok (p, j) from rfl, Res.bind_ok]
    dsimp only
    rw [direction_self]
    unfold rayCircle
    rw [if_neg nd]
    simp only [Res.bind_eq]
    have : ¬ |(V2.scale (-1) (0 : V2 ℝ)).x * (V2.scale (-1) (0 : V2 ℝ)).x + (V2.scale (-1) (0 : V2 ℝ)).y * (V2.scale (-1) (0 : V2 ℝ)).y - 1| < 1 / 10 ^ 10 := by
      simp [V2.scale]; norm_num
    rw [Res.assert_debug_false this]
    rfl
  · unfold faceEnds
    have m : V2.scale (1 / 2) (p + p) = p := by ext <;> simp [V2.scale] <;> ring
    simp only [Res.bind_eq]
    rw [m, direction_self, z _ (by simp [right]) (by simp [right]), Res.bind_ok, z _ (by simp [right, V2.scale]) (by simp [right, V2.scale])]
    rfl

/-- Generators outside the circle, as is the middle between them: the "nodes" are the generators and their middle, twice. Both cells are flat. -/
theorem C95_outside_fails (dbg : Bool) {p q c : V2 ℝ} {radius : ℝ} (hr : 0 ≤ radius) (hp : radius ^ 2 < d2 p c) (hq : radius ^ 2 < d2 q c) (hm : radius ^ 2 < d2 (V2.scale (1 / 2) (p + q)) c) :
    constructCells1d dbg c radius [(p, 0), (q, 1)] = .ok ([[0, 1, 2], [2, 1, 3]], [p, V2.scale (1 / 2) (p + q), V2.scale (1 / 2) (p + q), q]) := by
  have o : ∀ x n, radius ^ 2 < d2 x c → rayCircle dbg x n c radius tol = .ok x := fun x n h => C34_circle_outside_fails dbg hr (by simpa only [sq2, d2] using h)
  unfold constructCells1d firstCell lastCell faceEnds
  simp only [Res.bind_eq]
  rw [show rd [(p, 0), (q, 1)] 0 = .ok (p, 0) from rfl, Res.bind_ok, show rd [(p, 0), (q, 1)] 1 = .ok (q, 1) from rfl, Res.bind_ok]
  dsimp only
  rw [o p _ hp, o _ _ hm, o _ _ hm]
  show ((rayCircle dbg q _ c radius tol).bind _).bind _ = _
  rw [o q _ hq]
  cases dbg <;> rfl

section
/-- Three generators on a slanted line, not in order. -/
def gens3 : List (V2 ℝ) := [⟨1, 1⟩, ⟨-1, -1⟩, ⟨0, 0⟩]

theorem gens3_line : OnLine gens3 0 2 := by
  refine ⟨by simp [gens3], ?_, ?_, ?_, by norm_num⟩
  · intro p hp q hq r hr
    simp only [gens3, List.mem_cons, List.not_mem_nil, or_false] at hp hq hr
    rcases hp with rfl | rfl | rfl <;> rcases hq with rfl | rfl | rfl <;> rcases hr with rfl | rfl | rfl <;> norm_num [area2]
  · simp only [gens3, d2]; norm_num
  · intro p hp
    simp only [gens3, List.mem_cons, List.not_mem_nil, or_false] at hp
    rcases hp with rfl | rfl | rfl <;> norm_num [d2]

theorem gens3_sort : IsSort gens3 [(⟨-1, -1⟩, 1), (⟨0, 0⟩, 2), (⟨1, 1⟩, 0)] := by
  refine ⟨?_, ?_⟩
  · exact (List.perm_append_comm (l₁ := [((⟨-1, -1⟩ : V2 ℝ), 1), (⟨0, 0⟩, 2)]) (l₂ := [(⟨1, 1⟩, 0)]))
  · simp only [before]; norm_num

example : ∃ cells nodes, constructCells1d true 0 2 [(⟨-1, -1⟩, 1), (⟨0, 0⟩, 2), (⟨1, 1⟩, 0)] = .ok (cells, nodes) ∧ GoodCells gens3 0 2 cells nodes ∧ Shared gens3 cells :=
  C95_cells true gens3_line gens3_sort
example : ∃ ps, IsSort gens3 ps := C95_sort gens3
example : ∀ ps, IsSort gens3 ps → ps = [(⟨-1, -1⟩, 1), (⟨0, 0⟩, 2), (⟨1, 1⟩, 0)] := fun _ h => C95_sorted gens3_line h gens3_sort
example : constructCells1d true 0 2 [(⟨1, 1⟩, 0)] = .ub := C95_few_fails (gens := [⟨1, 1⟩]) true ⟨List.Perm.refl _, by simp⟩ (by simp)
example : constructCells1d true 0 2 [(⟨1, 1⟩, 0), (⟨1, 1⟩, 1)] = .abort := (C95_repeated_fails (rest := []) (by norm_num) (by norm_num [d2])).1
example : constructCells1d true 0 1 [(⟨2, 0⟩, 0), (⟨4, 0⟩, 1)] = .ok ([[0, 1, 2], [2, 1, 3]], [⟨2, 0⟩, V2.scale (1 / 2) (⟨2, 0⟩ + ⟨4, 0⟩), V2.scale (1 / 2) (⟨2, 0⟩ + ⟨4, 0⟩), ⟨4, 0⟩]) :=
  C95_outside_fails true (by norm_num) (by norm_num [d2]) (by norm_num [d2]) (by norm_num [d2, V2.scale])
end
end Verif.Cells1d
