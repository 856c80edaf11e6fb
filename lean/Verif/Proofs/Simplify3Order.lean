import Verif.Model.Simplify3
import Verif.Proofs.FaceEdges
/- What `computeSortedFaceEdges` has done whenever a debug build returns without adding an edge. -/
namespace Verif.Internal
open Verif

theorem findHanging_empty {use : Int → Nat} {dbg : Bool} : ∀ (rest : List Edge) (i : Nat) (s t : List Nat × N2E × List Int), findHanging dbg use i rest s = .ok t →
    s.2.2.length ≤ t.2.2.length ∧ (t.2.2.length = s.2.2.length → t = s)
  | [], i, s, t, h => by
    rw [findHanging] at h; cases h; exact ⟨le_refl _, fun _ => rfl⟩
  | e :: es, i, s, t, h => by
    rw [findHanging] at h
    split at h
    · rw [Res.bind_eq] at h
      obtain ⟨_, _, h⟩ := Res.bind_eq_ok.1 h
      obtain ⟨h1, _⟩ := findHanging_empty es _ _ _ h
      simp only [List.length_append, List.length_cons, List.length_nil] at h1
      exact ⟨by omega, fun e => by omega⟩
    · exact findHanging_empty es _ _ _ h

theorem walkEdges_inv {edges : List Edge} {dbg : Bool} : ∀ (k : Nat) (result : List Nat) (n2e : N2E) (last : Int) (r : List Nat), walkEdges dbg edges k result n2e last = .ok r →
    (∀ x, n2e x = inc edges result x) → result.Nodup → r.Nodup ∧ r.length = result.length + k ∧ ∀ i ∈ r, i ∈ result ∨ i < edges.length
  | 0, result, n2e, last, r, h, _, hn => by
    rw [walkEdges] at h; cases h; exact ⟨hn, by simp, fun i hi => Or.inl hi⟩
  | k + 1, result, n2e, last, r, h, hi, hn => by
    rw [walkEdges, Res.bind_eq] at h
    obtain ⟨_, _, h⟩ := Res.bind_eq_ok.1 h
    obtain ⟨i, h1, h⟩ := Res.bind_eq_ok.1 h
    obtain ⟨e, h2, h⟩ := Res.bind_eq_ok.1 h
    rw [rd_eq_ok] at h1 h2
    have hm := List.mem_of_getElem? h1
    rw [hi, mem_inc] at hm
    obtain ⟨g1, g2, g3⟩ := walkEdges_inv k _ _ _ _ h (erase_inc hi h2) (by
      rw [List.nodup_append]
      refine ⟨hn, by simp, ?_⟩
      intro a ha b hb
      simp only [List.mem_singleton] at hb
      subst hb
      rintro rfl
      exact hm.2 ha)
    refine ⟨g1, by rw [g2]; simp; omega, fun j hj => ?_⟩
    rcases g3 j hj with h | h
    · rw [List.mem_append, List.mem_singleton] at h
      rcases h with h | rfl
      · exact Or.inl h
      · exact Or.inr (List.getElem?_eq_some_iff.1 h2).1
    · exact Or.inr h

theorem orientEdges_index {edges : List Edge} {dbg : Bool} : ∀ (l : List Nat) (last : Int) (r : List Int), orientEdges dbg edges l last = .ok r → r.map posID = l
  | [], last, r, h => by rw [orientEdges] at h; cases h; rfl
  | i :: is, last, r, h => by
    rw [orientEdges, Res.bind_eq] at h
    obtain ⟨e, _, h⟩ := Res.bind_eq_ok.1 h
    rw [Res.bind_eq] at h
    obtain ⟨_, _, h⟩ := Res.bind_eq_ok.1 h
    split at h
    · rw [Res.bind_eq] at h
      obtain ⟨r', h1, h⟩ := Res.bind_eq_ok.1 h
      rw [Res.pure_eq] at h; cases h
      rw [List.map_cons, Mesh.posID_natCast, orientEdges_index is _ _ h1]
    · rw [Res.bind_eq] at h
      obtain ⟨r', h1, h⟩ := Res.bind_eq_ok.1 h
      rw [Res.pure_eq] at h; cases h
      rw [List.map_cons, Mesh.posID_flip, orientEdges_index is _ _ h1]

/-- A signed edge id as the directed edge it stands for. -/
def dirOf (edges : List Edge) (s : Int) : Edge := if s < 0 then ((edges.getD (posID s) (0, 0)).2, (edges.getD (posID s) (0, 0)).1) else edges.getD (posID s) (0, 0)

/-- If a debug build returns and has added no edge, the order visits every edge once, head to tail. -/
theorem sorted_ok {edges edges' : List Edge} {order : List Int} (hd : ∀ e ∈ edges, e.1 ≠ e.2) (h : computeSortedFaceEdges true edges = .ok (false, edges', order)) :
    edges' = edges ∧ (order.map posID).Perm (List.range edges.length) ∧ order.length = edges.length ∧
    ∀ j < edges.length, (dirOf edges (order.getD j 0)).2 = (dirOf edges (order.getD ((j + 1) % edges.length) 0)).1 := by
  unfold computeSortedFaceEdges at h
  simp only [Res.bind_eq] at h
  obtain ⟨_, hlen, h⟩ := Res.bind_eq_ok.1 h
  obtain ⟨hg, h1, h⟩ := Res.bind_eq_ok.1 h
  obtain ⟨_, _, h⟩ := Res.bind_eq_ok.1 h
  obtain ⟨st, h2, h⟩ := Res.bind_eq_ok.1 h
  obtain ⟨ord, h3, h⟩ := Res.bind_eq_ok.1 h
  obtain ⟨sg, h4, h⟩ := Res.bind_eq_ok.1 h
  rw [Res.pure_eq] at h
  simp only [Res.ok.injEq, Prod.mk.injEq, Bool.not_eq_false'] at h
  obtain ⟨e1, e2, rfl⟩ := h
  have e3 : hg.2.2 = [] := by simpa using e1
  have e4 := (findHanging_empty _ _ _ _ h1).2 (by rw [e3])
  subst e4
  simp only [startWalk, Res.bind_eq] at h2
  obtain ⟨e0, h5, h2⟩ := Res.bind_eq_ok.1 h2
  rw [Res.pure_eq] at h2
  cases h2
  dsimp only at h3 h4 e2
  subst e2
  simp only [List.length_nil, Nat.sub_zero] at h3
  obtain ⟨g1, g2, g3⟩ := walkEdges_inv _ _ _ _ _ h3 (invert_top hd).1 (by simp)
  simp only [List.length_nil, Nat.zero_add] at g2
  have hperm : ord.Perm (List.range edges.length) := by
    apply List.Subperm.perm_of_length_le
    · refine (List.subperm_of_subset g1 ?_)
      intro i hi
      rcases g3 i hi with h | h
      · simp at h
      · simpa using h
    · simp [g2]
  unfold finishOrder at h4
  match ord, h4, hperm, g2 with
  | r0 :: r1 :: rs, h4, hperm, g2 =>
    simp only [Res.bind_eq] at h4
    obtain ⟨x0, _, h4⟩ := Res.bind_eq_ok.1 h4
    obtain ⟨x1, _, h4⟩ := Res.bind_eq_ok.1 h4
    obtain ⟨sg', h6, h4⟩ := Res.bind_eq_ok.1 h4
    obtain ⟨_, h7, h4⟩ := Res.bind_eq_ok.1 h4
    obtain ⟨_, h8, h4⟩ := Res.bind_eq_ok.1 h4
    rw [Res.pure_eq] at h4
    cases h4
    have h7 := Res.assert_eq_ok.1 h7
    have h8 := Res.assert_eq_ok.1 h8
    simp only [forall_const] at h7 h8
    have hi := orientEdges_index _ _ _ h6
    refine ⟨rfl, ?_, h7.symm, ?_⟩
    · rw [List.map_cons, Mesh.posID_natCast, hi]; exact hperm
    · intro j hj
      unfold contractOK at h8
      rw [List.all_eq_true] at h8
      have := h8 j (List.mem_range.2 hj)
      have hm := Nat.mod_lt (j + 1) (show 0 < edges.length by omega)
      have a1 : ((r0 : Int) :: sg')[j]? = some (((r0 : Int) :: sg').getD j 0) := by
        rw [List.getElem?_eq_getElem (by omega), List.getD_eq_getElem?_getD, List.getElem?_eq_getElem (by omega), Option.getD_some]
      have a2 : ((r0 : Int) :: sg')[(j + 1) % edges.length]? = some (((r0 : Int) :: sg').getD ((j + 1) % edges.length) 0) := by
        rw [List.getElem?_eq_getElem (by omega), List.getD_eq_getElem?_getD, List.getElem?_eq_getElem (by omega), Option.getD_some]
      rw [a1, a2] at this
      dsimp only at this
      set ii := ((r0 : Int) :: sg').getD j 0
      set jj := ((r0 : Int) :: sg').getD ((j + 1) % edges.length) 0
      have hget : ∀ s : Int, edges[posID s]? = none ∨ edges[posID s]? = some (edges.getD (posID s) (0, 0)) := by
        intro s
        rcases Nat.lt_or_ge (posID s) edges.length with h | h
        · right; rw [List.getElem?_eq_getElem h, List.getD_eq_getElem?_getD, List.getElem?_eq_getElem h, Option.getD_some]
        · left; simpa using h
      rcases hget ii with b1 | b1
      · rw [b1] at this; simp at this
      rcases hget jj with b2 | b2
      · rw [b1, b2] at this; simp at this
      rw [b1, b2] at this
      simp only [beq_iff_eq] at this
      unfold dirOf
      by_cases c1 : ii < 0 <;> by_cases c2 : jj < 0
      · rw [if_neg (by omega), if_neg (by omega)] at this
        rw [if_pos c1, if_pos c2]; exact this
      · rw [if_neg (by omega), if_pos (by omega)] at this
        rw [if_pos c1, if_neg c2]; exact this
      · rw [if_pos (by omega), if_neg (by omega)] at this
        rw [if_neg c1, if_pos c2]; exact this
      · rw [if_pos (by omega), if_pos (by omega)] at this
        rw [if_neg c1, if_neg c2]; exact this
end Verif.Internal
