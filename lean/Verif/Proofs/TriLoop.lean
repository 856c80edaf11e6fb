import Verif.Proofs.TriCell
import Mathlib.Data.List.Rotate
/- The order of the nodes of one cell. -/
namespace Verif.Tri
open Verif Verif.Mesh Verif.Internal Verif.Geom Verif.Readout

theorem ekey_joins (a b : Nat) : Joins (ekey a b) a b := by
  unfold ekey Joins; split <;> simp

theorem FanI.ekey_inj {T : List Tri3} {p N : Nat} {v g : Int → Nat} (h : FanI T p N v g) (a b : Int) : ekey (v a) (v (a + 1)) = ekey (v b) (v (b + 1)) ↔ (N : Int) ∣ a - b := by
  have h3 := h.three
  rw [ekey_eq, h.vinj, h.vinj, h.vinj, h.vinj]
  constructor
  · rintro (⟨h1, _⟩ | ⟨h1, h2⟩)
    · exact h1
    · exfalso
      have := dvd_sub h2 h1
      rw [show a + 1 - b - (a - (b + 1)) = 2 by ring] at this
      have := dvd_small this (by omega) (by omega)
      omega
  · intro h1
    left
    refine ⟨h1, ?_⟩
    rwa [show a + 1 - (b + 1) = a - b by ring]

/-- The edges of the cell form one cycle through the nodes of the fan. -/
theorem FanI.cycle {T : List Tri3} {p N : Nat} {v g : Int → Nat} (h : FanI T p N v g) {m : List Edge} (hs : m.Pairwise elt) (hm : ∀ e, e ∈ m ↔ ∃ a b, Across T p a b ∧ e = ekey a b) :
    m.length = N ∧ ∃ q, Cyc m (fun a => (v a : Int)) q := by
  have h3 := h.three
  have hmem : ∀ e, e ∈ m ↔ ∃ a, e = ekey (v a) (v (a + 1)) := by
    intro e
    rw [hm]
    constructor
    · rintro ⟨a, b, hab, rfl⟩
      obtain ⟨k, ⟨rfl, rfl⟩ | ⟨rfl, rfl⟩⟩ := (h.across a b).1 hab
      · exact ⟨k, rfl⟩
      · exact ⟨k, ekey_eq.2 (Or.inr ⟨rfl, rfl⟩)⟩
    · rintro ⟨a, rfl⟩
      exact ⟨_, _, (h.across _ _).2 ⟨a, Or.inl ⟨rfl, rfl⟩⟩, rfl⟩
  have hlen : m.length = N := by
    have hnd : ((List.range N).map fun k : Nat => ekey (v k) (v (k + 1))).Nodup := by
      apply List.Nodup.map_on _ List.nodup_range
      intro x hx y hy hxy
      simp only [List.mem_range] at hx hy
      have := dvd_small ((h.ekey_inj _ _).1 hxy) (by omega) (by omega)
      omega
    have hp : m.Perm ((List.range N).map fun k : Nat => ekey (v k) (v (k + 1))) := by
      rw [List.perm_ext_iff_of_nodup (elt_nodup hs) hnd]
      intro e
      rw [hmem, List.mem_map]
      constructor
      · rintro ⟨a, rfl⟩
        have ha := Int.emod_nonneg a (b := (N : Int)) (by omega)
        have ha' := Int.emod_lt_of_pos a (b := (N : Int)) (by omega)
        refine ⟨(a % N).toNat, List.mem_range.2 (by omega), (h.ekey_inj _ _).2 ?_⟩
        rw [Int.toNat_of_nonneg ha]
        exact ⟨-(a / N), by have := Int.emod_add_mul_ediv a N; rw [Int.mul_neg]; omega⟩
      · rintro ⟨k, _, rfl⟩; exact ⟨k, rfl⟩
    rw [hp.length_eq]; simp
  refine ⟨hlen, fun a => m.idxOf (ekey (v a) (v (a + 1))), ?_, ?_, ?_, ?_⟩
  · omega
  · intro a b
    rw [hlen, ← h.vinj]; omega
  · intro a b
    rw [hlen, ← h.ekey_inj]
    constructor
    · intro he
      have m1 : ekey (v a) (v (a + 1)) ∈ m := (hmem _).2 ⟨a, rfl⟩
      exact List.idxOf_inj m1 |>.1 he
    · intro he; rw [he]
  · intro a
    have m1 : ekey (v a) (v (a + 1)) ∈ m := (hmem _).2 ⟨a, rfl⟩
    have hlt := List.idxOf_lt_length_of_mem m1
    refine ⟨ekey (v a) (v (a + 1)), ?_, ekey_joins _ _⟩
    rw [List.getElem?_eq_getElem hlt, List.getElem_idxOf hlt]

/-- Start from edge 0 in its own direction, remembering how the new numbering comes from the old one. -/
theorem cyc_normal {edges : List Edge} {v : Int → Int} {p : Int → Nat} (h : Cyc edges v p) : ∃ v' p', Cyc edges v' p' ∧ p' 0 = 0 ∧ edges[0]? = some (v' 0, v' 1) ∧
    ∃ k : Int, (∀ a, v' a = v (k + a)) ∨ (∀ a, v' a = v (k - a)) := by
  obtain ⟨k, hk, hk0⟩ := h.surj (i := 0) (by have := h.three; omega)
  have h1 := h.shift k
  obtain ⟨e, he, hj⟩ := h1.edge 0
  simp only [Int.zero_add, hk0] at he hj
  rcases hj with rfl | rfl
  · exact ⟨_, _, h1, by simp [hk0], by rw [he]; simp, k, Or.inl fun a => by rw [Int.add_comm]⟩
  · exact ⟨_, _, h1.reverse, by simp [hk0], by rw [he]; simp, k + 1, Or.inr fun a => by show v (1 - a + k) = _; congr 1; ring⟩

theorem findEnds_none {use : Int → Nat} : ∀ (es : List Edge) (i : Nat) (s : List Nat × N2E), (∀ e ∈ es, use e.1 = 2 ∧ use e.2 = 2) → findEnds use i es s = s
  | [], _, _, _ => rfl
  | e :: es, i, s, h => by
    have := h e (by simp)
    unfold findEnds
    rw [if_neg (by omega)]
    exact findEnds_none es (i + 1) s fun e he => h e (by simp [he])

theorem common_spec (dbg : Bool) {edges : List Edge} {v : Int → Int} {p : Int → Nat} (h : Cyc edges v p) {i : Nat} (hi : i < edges.length) : commonNode dbg edges (Cyc.ord p edges.length) i = .ok (v (i + 1)) := by
  have h3 := h.three
  have hm : (i + 1) % edges.length < edges.length := Nat.mod_lt _ (by omega)
  have r1 : (Cyc.ord p edges.length)[i]? = some (p i) := by simp [Cyc.ord, hi]
  have r2 : (Cyc.ord p edges.length)[(i + 1) % edges.length]? = some (p (i + 1)) := by
    simp only [Cyc.ord, List.getElem?_map, List.getElem?_range hm, Option.map_some, Option.some.injEq]
    rw [h.pinj]
    push_cast
    have := Int.emod_add_mul_ediv ((i : Int) + 1) edges.length
    refine ⟨-(((i : Int) + 1) / edges.length), ?_⟩
    rw [Int.mul_neg]; omega
  obtain ⟨e, he, hj⟩ := h.edge i
  obtain ⟨f, hf, hj'⟩ := h.edge (i + 1)
  have n1 : v i ≠ v (i + 1) := h.v_succ_ne i
  have n2 : v (i + 1) ≠ v (i + 1 + 1) := h.v_succ_ne (i + 1)
  have n3 : v i ≠ v (i + 1 + 1) := by
    intro hc
    have := dvd_small ((h.vinj _ _).1 hc) (by omega) (by omega)
    omega
  unfold commonNode
  rw [rd_eq_ok.2 r1, Res.ok_bind, rd_eq_ok.2 r2, Res.ok_bind, rd_eq_ok.2 he, Res.ok_bind, rd_eq_ok.2 hf, Res.ok_bind]
  rcases hj with rfl | rfl <;> rcases hj' with rfl | rfl
  · rw [Res.assert_true dbg (by simp), Res.ok_bind, if_neg (by simp [n1, n3])]; rfl
  · rw [Res.assert_true dbg (by simp), Res.ok_bind, if_neg (by simp [n1, n3])]; rfl
  · rw [Res.assert_true dbg (by simp), Res.ok_bind, if_pos (by simp)]; rfl
  · rw [Res.assert_true dbg (by simp), Res.ok_bind, if_pos (by simp)]; rfl

theorem commons_spec (dbg : Bool) {edges : List Edge} {v : Int → Int} {p : Int → Nat} (h : Cyc edges v p) : ∀ (k i : Nat), i + k ≤ edges.length →
    commonNodes dbg edges (Cyc.ord p edges.length) i k = .ok ((List.range' i k).map fun j : Nat => v (j + 1))
  | 0, i, _ => by simp [commonNodes]
  | k + 1, i, hi => by
    unfold commonNodes
    rw [common_spec dbg h (by omega), Res.ok_bind, commons_spec dbg h k (i + 1) (by omega), Res.ok_bind, List.range'_succ]
    rfl

theorem sorted_spec (dbg : Bool) {edges : List Edge} {v : Int → Int} {p : Int → Nat} (h : Cyc edges v p) (hp : p 0 = 0) (h0 : edges[0]? = some (v 0, v 1)) :
    sortedFaceNodes dbg edges = .ok ((List.range edges.length).map fun j : Nat => v (j + 1)) := by
  have h3 := h.three
  obtain ⟨i1, i2⟩ := invert_top h.noloop
  have huse : ∀ e ∈ edges, (invertEdges 0 edges (fun _ => [], fun _ => 0)).2 e.1 = 2 ∧ (invertEdges 0 edges (fun _ => [], fun _ => 0)).2 e.2 = 2 := by
    intro e he
    obtain ⟨i, hi⟩ := List.getElem?_of_mem he
    obtain ⟨k, hk, rfl⟩ := h.surj (List.getElem?_eq_some_iff.1 hi).1
    obtain ⟨e', he', hj⟩ := h.edge k
    rw [hi] at he'; cases he'
    rw [i2, i2]
    rcases hj with rfl | rfl
    · exact ⟨h.use_two _, h.use_two _⟩
    · exact ⟨h.use_two _, h.use_two _⟩
  have hE := findEnds_none edges 0 ([], (invertEdges 0 edges (fun _ => [], fun _ => 0)).1) huse
  have hW := h.walk_all dbg hp i1
  have hC := commons_spec dbg h edges.length 0 (by omega)
  match edges, h3 with
  | e0 :: e1 :: es, _ =>
    have he0 : e0.1 = v 0 := by simp at h0; rw [h0]
    unfold sortedFaceNodes
    simp only [hE]
    rw [Res.assert_true dbg (by simp), Res.ok_bind, he0, hW, Res.ok_bind, hC, Res.ok_bind, Res.assert_true dbg (by simp), Res.ok_bind, List.range_eq_range']
    rfl

theorem pairs_of_range {α : Type} (f : Int → α) {n : Nat} (h0 : 0 < n) (hf : f (n + 1) = f 1) : cyclicPairs ((List.range n).map fun j : Nat => f (j + 1)) = (List.range n).map fun j : Nat => (f (j + 1), f (j + 1 + 1)) := by
  apply List.ext_getElem
  · simp [cyclicPairs]
  · intro i h1 h2
    simp only [List.length_map, List.length_range] at h2
    simp only [cyclicPairs, List.getElem_zip, List.getElem_map, List.getElem_range, List.getElem_rotate, List.length_map, List.length_range, Prod.mk.injEq, true_and]
    by_cases hi : i + 1 < n
    · rw [Nat.mod_eq_of_lt hi]; push_cast; rfl
    · have : i + 1 = n := by omega
      have e : ((i : Int) + 1) = n := by omega
      rw [this, Nat.mod_self, e, hf]; simp

/-- The nodes of a fan, shifted or reversed, as a list. -/
theorem rotated {l : List Nat} (h0 : 0 < l.length) {f : Int → Nat} {k : Int} (hf : (∀ a, f a = cyc l (k + a)) ∨ ∀ a, f a = cyc l (k - a)) :
    l ~r ((List.range l.length).map fun j : Nat => f (j + 1)) ∨ l.reverse ~r ((List.range l.length).map fun j : Nat => f (j + 1)) := by
  have hN : (0 : Int) < l.length := by omega
  rcases hf with hf | hf
  · left
    refine ⟨((k + 1) % l.length).toNat, ?_⟩
    apply List.ext_getElem
    · simp
    · intro i h1 h2
      simp only [List.length_map, List.length_range] at h2
      simp only [List.getElem_rotate, List.getElem_map, List.getElem_range, hf]
      have ha := Int.emod_nonneg (k + 1) (b := (l.length : Int)) (by omega)
      have e : (i + ((k + 1) % l.length).toNat) % l.length = ((k + (i + 1)) % l.length).toNat := by
        have : (((i + ((k + 1) % l.length).toNat) % l.length : Nat) : Int) = (k + (i + 1)) % l.length := by
          push_cast
          rw [Int.toNat_of_nonneg ha, Int.add_emod_emod]
          congr 1; ring
        omega
      have hlt : ((k + (i + 1)) % l.length).toNat < l.length := by
        have := Int.emod_lt_of_pos (k + (i + 1)) hN
        have := Int.emod_nonneg (k + (i + 1)) (b := (l.length : Int)) (by omega)
        omega
      unfold cyc
      simp only [e, List.getD, List.getElem?_eq_getElem hlt, Option.getD_some]
  · right
    refine ⟨((-k) % l.length).toNat, ?_⟩
    apply List.ext_getElem
    · simp
    · intro i h1 h2
      simp only [List.length_map, List.length_range] at h2
      simp only [List.getElem_rotate, List.getElem_map, List.getElem_range, hf, List.getElem_reverse, List.length_reverse]
      have ha := Int.emod_nonneg (-k) (b := (l.length : Int)) (by omega)
      have hlt : ((k - (i + 1)) % l.length).toNat < l.length := by
        have := Int.emod_lt_of_pos (k - (i + 1)) hN
        have := Int.emod_nonneg (k - (i + 1)) (b := (l.length : Int)) (by omega)
        omega
      have e : l.length - 1 - (i + ((-k) % l.length).toNat) % l.length = ((k - (i + 1)) % l.length).toNat := by
        have h5 : (((i + ((-k) % l.length).toNat) % l.length : Nat) : Int) = (i - k) % l.length := by
          push_cast
          rw [Int.toNat_of_nonneg ha, Int.add_emod_emod]
          congr 1
        have h6 := Int.emod_lt_of_pos ((i : Int) - k) hN
        have h7 := Int.emod_nonneg ((i : Int) - k) (b := (l.length : Int)) (by omega)
        have h8 : (k - (i + 1)) % l.length = l.length - 1 - (i - k) % l.length := by
          have := Int.emod_add_mul_ediv ((i : Int) - k) l.length
          have e2 : k - ((i : Int) + 1) = (l.length - 1 - (i - k) % l.length) + l.length * (-((i - k) / l.length) - 1) := by
            have : (l.length : Int) * (-((i - k) / l.length) - 1) = -(l.length * ((i - k) / l.length)) - l.length := by ring
            rw [this]; omega
          rw [e2, Int.add_mul_emod_self_left]
          exact Int.emod_eq_of_lt (by omega) (by omega)
        omega
      unfold cyc
      simp only [e, List.getD, List.getElem?_eq_getElem hlt, Option.getD_some]
end Verif.Tri
