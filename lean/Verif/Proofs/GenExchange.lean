import Verif.Proofs.Exchange
import Verif.Proofs.Gather
/- The exchange of generators. -/
namespace Verif.Exch
open Verif Verif.Mesh Verif.Mpi Verif.Serialize

/-- The generators of process `p` after its first `k` neighbours, and the processes they come from. -/
def gensAt (D : Nat) (nb : Nat → List Nat) (pts : Nat → List (BitVec 64)) (p k : Nat) : List (BitVec 64) × List Nat :=
  ((p :: (nb p).take k).flatMap pts, (p :: (nb p).take k).flatMap fun q => List.replicate ((pts q).length / D) q)

theorem gens_len {D : Nat} {pts : Nat → List (BitVec 64)} (hD : 0 < D) : ∀ (l : List Nat), (∀ q ∈ l, D ∣ (pts q).length) →
    (l.flatMap pts).length / D = (l.flatMap fun q => List.replicate ((pts q).length / D) q).length ∧ D ∣ (l.flatMap pts).length
  | [], _ => by simp
  | q :: l, h => by
    obtain ⟨h1, h2⟩ := gens_len hD l fun q hq => h q (by simp [hq])
    obtain ⟨c, hc⟩ := h q (by simp)
    obtain ⟨e, he⟩ := h2
    simp only [List.flatMap_cons, List.length_append, List.length_replicate, ← h1]
    rw [hc, he, Nat.mul_div_cancel_left _ hD, Nat.mul_div_cancel_left _ hD, ← Nat.mul_add, Nat.mul_div_cancel_left _ hD]
    exact ⟨rfl, c + e, rfl⟩

theorem resize_append {α : Type} (l : List α) (k : Nat) (x : α) : resize l (l.length + k) x = l ++ List.replicate k x := by
  rw [resize, List.take_of_length_le (by omega), Nat.add_sub_cancel_left]

theorem genFits (dbg : Bool) {D n : Nat} {nb : Nat → List Nat} {pts : Nat → List (BitVec 64)} (hD : 0 < D) (hdvd : ∀ p, p < n → D ∣ (pts p).length)
    (hsm : ∀ p, p < n → 4 + 8 * (pts p).length < 2 ^ 31) (hlt : ∀ p, p < n → ∀ q ∈ nb p, q < n) (hsym : ∀ p, p < n → ∀ q ∈ nb p, p ∈ nb q)
    (hnd : ∀ p, p < n → (nb p).Nodup) (hne : ∀ p, p < n → nb p ≠ []) :
    Mpi.Fits (genProg dbg D nb pts) n (fun p => (nb p).map fun _ => (4 + 8 * (pts p).length, some (ser (.vec (.prim 8)) (pts p) [])))
      (gensAt D nb pts) := by
  have hser : ∀ p, p < n → (ser (.vec (.prim 8)) (pts p) []).length = 4 + 8 * (pts p).length := fun p hp =>
    Par.ser_length (pts p) (by have := hsm p hp; unfold Par.MsgSmall; omega)
  refine ⟨hlt, hsym, hnd, hne, ?_, ?_, ?_⟩
  · intro p hp
    have h1 := hser p hp
    have h2 := hsm p hp
    have hm : (ser (.vec (.prim 8)) (pts p) []).length % 2 ^ 32 = 4 + 8 * (pts p).length := by rw [h1]; exact Nat.mod_eq_of_lt (by omega)
    have ht : (ser (.vec (.prim 8)) (pts p) []).take (4 + 8 * (pts p).length) = ser (.vec (.prim 8)) (pts p) [] := by
      rw [← h1, List.take_length]
    simp only [genProg, hm, ht]
    rw [if_neg (by omega), if_neg (by omega)]
    simp [gensAt]
  · intro p hp; simp [genProg]
  · intro p hp k q j sz d hk hj hm
    change (nb p)[k]? = some q at hk
    change (nb q)[j]? = some p at hj
    have hq := hlt p hp q (List.mem_of_getElem? hk)
    obtain ⟨hkl, hkq⟩ := List.getElem?_eq_some_iff.1 hk
    simp only [List.getElem?_map, hj, Option.map_some, Option.some.injEq, Prod.mk.injEq] at hm
    obtain ⟨rfl, rfl⟩ := hm
    refine ⟨?_, fun h => (by cases h), ?_⟩
    · simp only [genProg, Res.pure_eq, Option.isSome_some]; congr 1; simp
    · intro c hc
      cases hc
      have hf : Serialize.Fits (.vec (.prim 8)) (pts q) := ⟨by have := hsm q hq; omega, fun _ _ => trivial⟩
      have hd := C03_vector_appends dbg (.prim 8) (pts q) [] hf [] []
      rw [List.append_nil, List.nil_append] at hd
      simp only [List.length_nil] at hd
      have hrd : rd (nb p) k = .ok q := by rw [rd_lt hkl, hkq]
      have hl := hser q hq
      simp only [genProg, Res.pure_eq, Res.bind_eq, hl, Nat.sub_self, List.replicate_zero, List.append_nil]
      rw [if_neg (by omega), hd]
      simp only [Res.bind_ok, hl]
      rw [Res.assert_true dbg (by simp), Res.bind_ok, hrd, Res.bind_ok]
      congr 1
      have htake : (nb p).take (k + 1) = (nb p).take k ++ [q] := by rw [List.take_succ_eq_append_getElem hkl, hkq]
      simp only [gensAt, htake, ← List.cons_append, List.flatMap_append, List.flatMap_cons, List.flatMap_nil, List.append_nil, Prod.mk.injEq, true_and]
      have h1 := gens_len (pts := pts) hD (p :: (nb p).take k) (by
        intro r hr
        rcases List.mem_cons.1 hr with rfl | hr
        · exact hdvd r hp
        · exact hdvd r (hlt p hp r (List.mem_of_mem_take hr)))
      have h2 := gens_len (pts := pts) hD (p :: (nb p).take k ++ [q]) (by
        intro r hr
        rcases List.mem_append.1 hr with hr | hr
        · rcases List.mem_cons.1 hr with rfl | hr
          · exact hdvd r hp
          · exact hdvd r (hlt p hp r (List.mem_of_mem_take hr))
        · rw [List.mem_singleton] at hr; subst hr; exact hdvd r hq)
      have h3 := h2.1
      simp only [List.flatMap_append, List.flatMap_cons, List.flatMap_nil, List.append_nil] at h3 h1
      rw [h3, List.length_append, List.length_replicate, resize_append]
end Verif.Exch
