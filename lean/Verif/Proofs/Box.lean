import Verif.Model.Box
import Verif.Spec.Box
import Verif.Proofs.Polygon
import Verif.Proofs.CellPLC
import Mathlib.Tactic.Linarith
import Mathlib.Tactic.Common
/- Proofs about bounding boxes. -/
namespace Verif.Geom
open Verif Verif.Mesh
section
variable {K : Type} [Field K] [LinearOrder K]

theorem foldl_min_le : ∀ (vs : List K) (b : K), vs.foldl min b ≤ b ∧ (∀ v ∈ vs, vs.foldl min b ≤ v) ∧ (vs.foldl min b = b ∨ vs.foldl min b ∈ vs)
  | [], b => by simp
  | v :: vs, b => by
    obtain ⟨h1, h2, h3⟩ := foldl_min_le vs (min b v)
    simp only [List.foldl_cons]
    refine ⟨le_trans h1 (min_le_left _ _), fun w hw => ?_, ?_⟩
    · rcases List.mem_cons.mp hw with rfl | hw
      · exact le_trans h1 (min_le_right _ _)
      · exact h2 w hw
    · rcases h3 with h3 | h3
      · rw [h3]
        rcases min_choice b v with h | h
        · exact Or.inl h
        · rw [h]; exact Or.inr (by simp)
      · exact Or.inr (by simp [h3])

theorem foldl_max_ge : ∀ (vs : List K) (b : K), b ≤ vs.foldl max b ∧ (∀ v ∈ vs, v ≤ vs.foldl max b) ∧ (vs.foldl max b = b ∨ vs.foldl max b ∈ vs)
  | [], b => by simp
  | v :: vs, b => by
    obtain ⟨h1, h2, h3⟩ := foldl_max_ge vs (max b v)
    simp only [List.foldl_cons]
    refine ⟨le_trans (le_max_left _ _) h1, fun w hw => ?_, ?_⟩
    · rcases List.mem_cons.mp hw with rfl | hw
      · exact le_trans (le_max_right _ _) h1
      · exact h2 w hw
    · rcases h3 with h3 | h3
      · rw [h3]
        rcases max_choice b v with h | h
        · exact Or.inl h
        · rw [h]; exact Or.inr (by simp)
      · exact Or.inr (by simp [h3])

theorem reduce_min {vs : List K} (h : vs ≠ []) : allReduce min vs ∈ vs ∧ ∀ v ∈ vs, allReduce min vs ≤ v := by
  cases vs with
  | nil => exact absurd rfl h
  | cons a l =>
    obtain ⟨h1, h2, h3⟩ := foldl_min_le l a
    refine ⟨?_, fun v hv => ?_⟩
    · rcases h3 with h3 | h3 <;> simp [allReduce, h3]
    · rcases List.mem_cons.mp hv with rfl | hv
      exacts [h1, h2 v hv]

theorem reduce_max {vs : List K} (h : vs ≠ []) : allReduce max vs ∈ vs ∧ ∀ v ∈ vs, v ≤ allReduce max vs := by
  cases vs with
  | nil => exact absurd rfl h
  | cons a l =>
    obtain ⟨h1, h2, h3⟩ := foldl_max_ge l a
    refine ⟨?_, fun v hv => ?_⟩
    · rcases h3 with h3 | h3 <;> simp [allReduce, h3]
    · rcases List.mem_cons.mp hv with rfl | hv
      exacts [h1, h2 v hv]

/-- The values of coordinate `j`. -/
def vals {K : Type} [Field K] (d j : Nat) (pos : List K) : List K := (List.range (pos.length / d)).map fun i => pos.getD (d * i + j) 0

/-- Low and high of a list of values. -/
def span (big : K) (vs : List K) : K × K := (vs.foldl min big, vs.foldl max (-big))

theorem idx_lt {d j i n : Nat} (hj : j < d) (hi : i < n / d) : d * i + j < n := by
  have h1 : d * i + d ≤ d * (n / d) := by rw [← Nat.mul_succ]; exact Nat.mul_le_mul_left _ hi
  have h2 := Nat.mul_div_le n d
  omega

theorem boxCoord_ok {big : K} {d j : Nat} {pos : List K} (hj : j < d) : boxCoord big d j pos = .ok (span big (vals d j pos)) := by
  have gen : ∀ (l : List Nat) (b : K × K), (∀ i ∈ l, i < pos.length / d) →
      l.foldlM (boxPoint d j pos) b = .ok ((l.map fun i => pos.getD (d * i + j) 0).foldl min b.1, (l.map fun i => pos.getD (d * i + j) 0).foldl max b.2) := by
    intro l
    induction l with
    | nil => intro b _; rfl
    | cons i l ih =>
      intro b hl
      have hlt := idx_lt hj (hl i (by simp))
      rw [List.foldlM_cons, boxPoint, rd_getD hlt 0, Res.ok_bind]
      exact ih _ fun k hk => hl k (by simp [hk])
  exact gen _ _ fun i hi => List.mem_range.mp hi

theorem mapM_ok {α β : Type} {g : α → Res β} {f : α → β} : ∀ (l : List α), (∀ a ∈ l, g a = .ok (f a)) → l.mapM g = .ok (l.map f)
  | [], _ => rfl
  | a :: l, h => by
    rw [List.mapM_cons, h a (by simp), Res.ok_bind, mapM_ok l (fun x hx => h x (by simp [hx])), Res.ok_bind]; rfl

theorem localBox_ok (dbg : Bool) {big : K} {d : Nat} {pos : List K} (hd : d ∣ pos.length) :
    localBox dbg big d pos = .ok ((List.range d).map fun j => span big (vals d j pos)) := by
  unfold localBox
  rw [Res.assert_true dbg (Nat.mod_eq_zero_of_dvd hd), Res.ok_bind]
  exact mapM_ok _ fun j hj => boxCoord_ok (List.mem_range.mp hj)

/-- Boxes given coordinate by coordinate. -/
def mkBox (d : Nat) (f : Nat → K × K) : List (K × K) := (List.range d).map f

omit [Field K] [LinearOrder K] in
theorem mkBox_get {d : Nat} {f : Nat → K × K} {j : Nat} {b : K × K} : (mkBox d f)[j]? = some b ↔ j < d ∧ b = f j := by
  simp only [mkBox, List.getElem?_map, Option.map_eq_some_iff]
  constructor
  · rintro ⟨a, h, rfl⟩
    obtain ⟨h1, rfl⟩ := List.getElem?_eq_some_iff.mp h
    simp at h1
    simp [h1]
  · rintro ⟨h, rfl⟩
    exact ⟨j, by simp [h], rfl⟩

omit [Field K] [LinearOrder K] in
theorem eq_mkBox [Inhabited K] {d : Nat} {b : List (K × K)} (h : b.length = d) : ∃ f, b = mkBox d f := by
  refine ⟨fun j => b.getD j default, ?_⟩
  apply List.ext_getElem
  · simp [mkBox, h]
  · intro i h1 h2
    simp [mkBox, List.getD, h1]

theorem reduceBoxes_ok {ι : Type} {d : Nat} {ps : List ι} {f : ι → Nat → K × K} :
    reduceBoxes d (ps.map fun p => mkBox d (f p)) = .ok (mkBox d fun j => (allReduce min (ps.map fun p => (f p j).1), allReduce max (ps.map fun p => (f p j).2))) := by
  unfold reduceBoxes
  refine mapM_ok _ fun j hj => ?_
  have hj := List.mem_range.mp hj
  unfold reduceCoord
  have : (ps.map fun p => mkBox d (f p)).mapM (fun b => rd b j) = .ok (ps.map fun p => f p j) := by
    rw [mapM_ok (f := fun b => b.getD j (0, 0))]
    · congr 1
      rw [List.map_map]
      apply List.map_congr_left
      intro p _
      simp [mkBox, List.getD, hj]
    · intro b hb
      obtain ⟨p, _, rfl⟩ := List.mem_map.mp hb
      exact rd_getD (by simpa [mkBox] using hj) _
  rw [this, Res.ok_bind, List.map_map, List.map_map]
  rfl

/-- `x` is the value of coordinate `j` of a point. -/
def CoordOf (pts : List (List K)) (j : Nat) (x : K) : Prop := ∃ p ∈ pts, p[j]? = some x

omit [Field K] in
theorem isBox_mk {d : Nat} {pts : List (List K)} {f : Nat → K × K} :
    IsBox d pts (mkBox d f) ↔ ∀ j, j < d → (∀ x, CoordOf pts j x → (f j).1 ≤ x ∧ x ≤ (f j).2) ∧ CoordOf pts j (f j).1 ∧ CoordOf pts j (f j).2 := by
  constructor
  · rintro ⟨⟨_, h1⟩, h2⟩ j hj
    have hb : (mkBox d f)[j]? = some (f j) := mkBox_get.mpr ⟨hj, rfl⟩
    exact ⟨fun x ⟨p, hp, hx⟩ => h1 p hp j _ x hb hx, (h2 j _ hb).1, (h2 j _ hb).2⟩
  · intro h
    refine ⟨⟨by simp [mkBox], fun p hp j b x hb hx => ?_⟩, fun j b hb => ?_⟩
    · obtain ⟨hj, rfl⟩ := mkBox_get.mp hb
      exact (h j hj).1 x ⟨p, hp, hx⟩
    · obtain ⟨hj, rfl⟩ := mkBox_get.mp hb
      exact (h j hj).2

omit [LinearOrder K] in
theorem coordOf_pointsOf {d : Nat} {pos : List K} {j : Nat} (hj : j < d) {x : K} : CoordOf (pointsOf d pos) j x ↔ x ∈ vals d j pos := by
  unfold CoordOf pointsOf vals
  simp only [List.mem_map, List.mem_range]
  constructor
  · rintro ⟨p, ⟨i, hi, rfl⟩, hx⟩
    refine ⟨i, hi, ?_⟩
    rw [List.getElem?_take_of_lt hj, List.getElem?_drop] at hx
    simp [List.getD, hx]
  · rintro ⟨i, hi, rfl⟩
    refine ⟨_, ⟨i, hi, rfl⟩, ?_⟩
    rw [List.getElem?_take_of_lt hj, List.getElem?_drop]
    have := idx_lt hj hi
    simp [List.getD, this]

omit [Field K] [LinearOrder K] in
theorem coordOf_flatMap {ι : Type} {ps : List ι} {g : ι → List (List K)} {j : Nat} {x : K} : CoordOf (ps.flatMap g) j x ↔ ∃ p ∈ ps, CoordOf (g p) j x := by
  unfold CoordOf
  simp only [List.mem_flatMap]
  constructor
  · rintro ⟨q, ⟨p, hp, hq⟩, hx⟩; exact ⟨p, hp, q, hq, hx⟩
  · rintro ⟨p, hp, q, hq, hx⟩; exact ⟨q, ⟨p, hp, hq⟩, hx⟩

omit [LinearOrder K] in
theorem vals_mem {d j : Nat} {pos : List K} (hj : j < d) {x : K} (h : x ∈ vals d j pos) : x ∈ pos := by
  obtain ⟨i, hi, rfl⟩ := List.mem_map.mp h
  have := idx_lt hj (List.mem_range.mp hi)
  rw [show pos.getD (d * i + j) 0 = pos[d * i + j] by simp [List.getD, this]]
  exact List.getElem_mem _

theorem span_spec {big : K} {vs : List K} (h0 : vs ≠ []) (hr : ∀ v ∈ vs, -big ≤ v ∧ v ≤ big) :
    (∀ v ∈ vs, (span big vs).1 ≤ v ∧ v ≤ (span big vs).2) ∧ (span big vs).1 ∈ vs ∧ (span big vs).2 ∈ vs := by
  obtain ⟨a1, a2, a3⟩ := foldl_min_le vs big
  obtain ⟨b1, b2, b3⟩ := foldl_max_ge vs (-big)
  obtain ⟨v, hv⟩ := List.exists_mem_of_ne_nil _ h0
  refine ⟨fun v hv => ⟨a2 v hv, b2 v hv⟩, ?_, ?_⟩
  · rcases a3 with a3 | a3
    · have e : v = big := le_antisymm (hr v hv).2 (by rw [← a3]; exact a2 v hv)
      show vs.foldl min big ∈ vs
      rw [a3, ← e]; exact hv
    · exact a3
  · rcases b3 with b3 | b3
    · have e : v = -big := le_antisymm (by rw [← b3]; exact b2 v hv) (hr v hv).1
      show vs.foldl max (-big) ∈ vs
      rw [b3, ← e]; exact hv
    · exact b3

theorem vals_ne {d j : Nat} {pos : List K} (hd : 0 < d) (hdv : d ∣ pos.length) (h : pos ≠ []) : vals d j pos ≠ [] := by
  unfold vals
  have : 0 < pos.length / d := Nat.div_pos (Nat.le_of_dvd (List.length_pos_iff.mpr h) hdv) hd
  intro e
  have := congrArg List.length e
  simp only [List.length_map, List.length_range, List.length_nil] at this
  omega
end
end Verif.Geom
