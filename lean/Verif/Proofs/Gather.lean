import Verif.Proofs.Parallel
import Verif.Props.Serialize
/- The gathering of the generators. -/
namespace Verif.Par
open Verif Verif.Mesh Verif.Serialize

/-- Points of one process that the messages can carry. -/
def MsgSmall (p : List (BitVec 64)) : Prop := 4 + 8 * p.length < 2 ^ 32

theorem serList_length (l : List (BitVec 64)) : ∀ buf, (serList (ser (.prim 8)) l buf).length = buf.length + 8 * l.length := by
  induction l with
  | nil => intro buf; simp [serList]
  | cons a l ih =>
    intro buf
    rw [serList, ih]
    have : (ser (.prim 8) a buf).length = buf.length + 8 := by
      have := bytesOf_length 8 a
      simp only [ser, serPrim, List.length_append, this]
    rw [this, List.length_cons]; omega

theorem ser_length (p : List (BitVec 64)) (h : MsgSmall p) : (ser (.vec (.prim 8)) p []).length = 4 + 8 * p.length := by
  unfold MsgSmall at h
  have h1 : p.length % 2 ^ 32 = p.length := Nat.mod_eq_of_lt (by omega)
  have h2 : p.take p.length = p := List.take_length
  show (serVec (ser (.prim 8)) p []).length = _
  rw [serVec, h1, h2, serList_length, serSize, serPrim, List.length_append, bytesOf_length]
  simp

theorem gatherStep_spec (dbg : Bool) (D : Nat) (s : List (BitVec 64) × List Nat) (p : List (BitVec 64)) (h : MsgSmall p) :
    gatherStep dbg D s p = .ok (s.1 ++ p, s.2 ++ [(s.1 ++ p).length / D % 2 ^ 32]) := by
  have hl := ser_length p h
  unfold MsgSmall at h
  have hm : (ser (.vec (.prim 8)) p []).length % 2 ^ 32 = (ser (.vec (.prim 8)) p []).length := Nat.mod_eq_of_lt (by omega)
  have hb : bcastBuffer (ser (.vec (.prim 8)) p []) = .ok (ser (.vec (.prim 8)) p []) := by
    unfold bcastBuffer
    rw [hm, if_neg (by omega), List.take_length]
  have hf : Fits (.vec (.prim 8)) p := ⟨by omega, fun _ _ => trivial⟩
  have hd := C03_vector_appends dbg (.prim 8) p s.1 hf [] []
  rw [List.append_nil] at hd
  unfold gatherStep
  simp only [hb, Res.bind_eq, Res.bind_ok]
  rw [show (0 : Nat) = ([] : List Byte).length from rfl, hd]
  simp [Res.bind_ok]

/-- The offsets after `k` more processes. -/
theorem gatherLoop_spec (dbg : Bool) (D : Nat) : ∀ (ps : List (List (BitVec 64))) (_ : ∀ p ∈ ps, MsgSmall p) (s : List (BitVec 64) × List Nat),
    ps.foldlM (gatherStep dbg D) s =
      .ok (s.1 ++ ps.flatten, s.2 ++ (List.range ps.length).map fun k => (s.1 ++ (ps.take (k + 1)).flatten).length / D % 2 ^ 32)
  | [], _, s => by simp
  | p :: ps, h, s => by
    rw [List.foldlM_cons, gatherStep_spec dbg D s p (h p (by simp)), Res.bind_eq, Res.bind_ok,
      gatherLoop_spec dbg D ps (fun q hq => h q (by simp [hq]))]
    simp [List.range_succ_eq_map, Function.comp_def]

theorem firstCell_succ {α : Type} (D : Nat) (procs : List (List α)) (r : Nat) (hr : r < procs.length) :
    firstCell D procs (r + 1) = firstCell D procs r + (procs.getD r []).length / D := by
  unfold firstCell
  rw [List.take_succ_eq_append_getElem hr, List.map_append, List.sum_append]
  simp only [List.map_cons, List.map_nil, List.sum_cons, List.sum_nil, Nat.add_zero, List.getD_eq_getElem?_getD, List.getElem?_eq_getElem hr, Option.getD_some]

theorem flatten_take_length {α : Type} {D : Nat} {procs : List (List α)} (h : ∀ p ∈ procs, D ∣ p.length) (k : Nat) :
    ((procs.take k).flatten).length = D * firstCell D procs k := by
  unfold firstCell
  have : ∀ l : List (List α), (∀ p ∈ l, D ∣ p.length) → l.flatten.length = D * (l.map (·.length / D)).sum := by
    intro l
    induction l with
    | nil => simp
    | cons a l ih =>
      intro hl
      obtain ⟨q, hq⟩ := hl a (by simp)
      have := ih (fun p hp => hl p (by simp [hp]))
      rw [List.flatten_cons, List.length_append, this, List.map_cons, List.sum_cons, Nat.mul_add, Nat.mul_div_cancel' (hl a (by simp))]
  exact this _ fun p hp => h p (List.mem_of_mem_take hp)

theorem firstCell_mono {α : Type} (D : Nat) (procs : List (List α)) {i j : Nat} (h : i ≤ j) : firstCell D procs i ≤ firstCell D procs j := by
  unfold firstCell
  obtain ⟨d, rfl⟩ := Nat.exists_eq_add_of_le h
  rw [List.take_add, List.map_append, List.sum_append]
  omega

/-- Input of the distributed tessellator: whole points on every process, and sizes that fit the message and index types. -/
structure GoodInput (D : Nat) (procs : List (List (BitVec 64))) : Prop where
  dim : 0 < D
  whole : ∀ p ∈ procs, D ∣ p.length
  msg : ∀ p ∈ procs, 4 + 8 * p.length < 2 ^ 32
  cells : firstCell D procs procs.length < 2 ^ 32
  np : procs.length < 2 ^ 32

theorem gather_spec (dbg : Bool) {D : Nat} {procs : List (List (BitVec 64))} (h : GoodInput D procs) :
    ∃ offs, gather dbg D procs = .ok (procs.flatten, offs) ∧ Offs procs.length offs ∧ ∀ r, r ≤ procs.length → offs.getD r 0 = firstCell D procs r := by
  have hoff : ∀ k, k ≤ procs.length → ((procs.take k).flatten).length / D % 2 ^ 32 = firstCell D procs k := by
    intro k hk
    rw [flatten_take_length h.whole, Nat.mul_div_cancel_left _ h.dim]
    exact Nat.mod_eq_of_lt (lt_of_le_of_lt (firstCell_mono D procs hk) h.cells)
  have hg : ∀ r, r ≤ procs.length → ([0] ++ (List.range procs.length).map fun k => ([] ++ (procs.take (k + 1)).flatten).length / D % 2 ^ 32).getD r 0 = firstCell D procs r := by
    intro r hr
    cases r with
    | zero => simp [firstCell]
    | succ r =>
      have : r < procs.length := by omega
      rw [← hoff (r + 1) hr]
      simp [this]
  refine ⟨[0] ++ (List.range procs.length).map fun k => ([] ++ (procs.take (k + 1)).flatten).length / D % 2 ^ 32, ?_, ?_, hg⟩
  · unfold gather
    rw [gatherLoop_spec dbg D procs h.msg, Res.bind_eq, Res.bind_ok]
    have hl : ([0] ++ (List.range procs.length).map fun k => ([] ++ (procs.take (k + 1)).flatten).length / D % 2 ^ 32).length = procs.length + 1 := by simp
    rw [Res.assert_true dbg hl, Res.bind_eq, Res.bind_ok, rd_getD' (by rw [hl]; omega) 0, hl, Nat.add_sub_cancel, hg _ (le_refl _), Res.bind_eq, Res.bind_ok,
      Res.assert_true dbg, Res.bind_eq, Res.bind_ok]
    · rfl
    · have := flatten_take_length h.whole procs.length
      rw [List.take_length] at this
      rw [List.nil_append, this, Nat.mul_div_cancel_left _ h.dim]
  · refine ⟨by simp, by simp, ?_, h.np⟩
    intro i hi
    rw [hg i (by omega), hg (i + 1) (by omega)]
    exact firstCell_mono D procs (by omega)

theorem own_eq {D : Nat} {procs : List (List (BitVec 64))} {offs : List Nat} (h : ∀ r, r ≤ procs.length → offs.getD r 0 = firstCell D procs r) {r : Nat}
    (hr : r < procs.length) : own offs r = cellsOfProc D procs r := by
  unfold own cellsOfProc
  rw [h r (by omega), h (r + 1) (by omega), firstCell_succ D procs r hr, Nat.add_sub_cancel_left]
end Verif.Par
