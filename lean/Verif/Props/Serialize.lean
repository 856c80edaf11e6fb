import Verif.Proofs.Serialize
/-
Properties C01, C02, C03: serialization (`/repo/src/polytope_serialize.hh`, `Point.hh`, `Segment.hh`).
-/
namespace Verif.Serialize
open Verif

/-- **C01.** Serialize any value whose containers have fewer than 2^32 elements onto any buffer `pre`; whatever bytes `post`
follow, deserializing a fresh object at the position where writing started returns the value and leaves the cursor exactly after
the bytes written, in debug and release builds. -/
theorem C01_round_trip (dbg : Bool) (t : Ty) (v : t.denote) (hv : Fits t v) (pre post : List Byte) :
    deser dbg t t.fresh (ser t v pre ++ post) pre.length = .ok (v, (ser t v pre).length) := by
  have h := inverts_ser dbg t v hv pre post
  rw [appends_ser t v pre]
  simpa using h

/-- **C01.** Serializing never changes the bytes already in the buffer, and the bytes added depend on the value only. -/
theorem C01_only_appends (t : Ty) (v : t.denote) (pre : List Byte) :
    pre <+: ser t v pre ∧ (ser t v pre).drop pre.length = ser t v [] := by
  rw [appends_ser t v pre]
  simp

/-- **C01.** Different values never have the same encoding. -/
theorem C01_injective (t : Ty) (v w : t.denote) (hv : Fits t v) (hw : Fits t w) (pre : List Byte)
    (h : ser t v pre = ser t w pre) : v = w := by
  have h1 := C01_round_trip false t v hv pre []
  have h2 := C01_round_trip false t w hw pre []
  rw [h, h2] at h1
  simpa using h1.symm

/-- A reduced PLC with a triangular boundary, one hole and three points. -/
def sampleRPLC : RPLC :=
  { facets := [[0, 1], [1, 2], [2, 0]], holes := [[[0, 2], [2, 1]]], points := [7, 8, 9, 10, 11, 12] }

/-- The hypotheses of the round trip are met by a nested, non-trivial value. -/
example : Fits (.vec (.vec .rplc)) [[sampleRPLC], [], [sampleRPLC, {}]] := by
  simp [Fits, sampleRPLC]

/-- The 32-bit length field is a real limit: a vector with 2^32 elements does not survive a round trip (it comes back empty). -/
theorem C01_needs_small (dbg : Bool) :
    deser dbg (.vec (.prim 0)) [] (ser (.vec (.prim 0)) (List.replicate (2 ^ 32) (0 : BitVec 0)) []) 0 = .ok ([], 4) := by
  have e : ser (.vec (.prim 0)) (List.replicate (2 ^ 32) (0 : BitVec 0)) [] = [0, 0, 0, 0] := by
    simp only [ser, serVec, List.length_replicate, Nat.mod_self, List.take_zero, serList]
    rfl
  rw [e]
  cases dbg <;> rfl

/-- **C02.** A receiver that expects the types the sender wrote recovers the whole sequence of values, of any mixture of types,
and consumes the buffer exactly. -/
theorem C02_stream_round_trip (dbg : Bool) (m : Msg) (hm : MsgFits m) :
    deserMsg dbg (m.map Sigma.fst) (serMsg m []) 0 = .ok (m, (serMsg m []).length) := by
  simpa using deserMsg_serMsg dbg m hm [] []

/-- **C02.** The same in the middle of a larger buffer. -/
theorem C02_stream_round_trip_at (dbg : Bool) (m : Msg) (hm : MsgFits m) (pre post : List Byte) :
    deserMsg dbg (m.map Sigma.fst) (serMsg m pre ++ post) pre.length = .ok (m, (serMsg m pre).length) := by
  have h := deserMsg_serMsg dbg m hm pre post
  rw [serMsg_append m pre]
  simpa using h

/-- **C02.** A message cut short anywhere is never accepted: the receiver does not get a value, and with assertions compiled in
the process aborts (rather than reading outside the buffer). -/
theorem C02_truncated_rejected (dbg : Bool) (m : Msg) (hm : MsgFits m) (k : Nat) (hk : k < (serMsg m []).length) :
    (∀ x, deserMsg dbg (m.map Sigma.fst) ((serMsg m []).take k) 0 ≠ .ok x) ∧
    (dbg = true → deserMsg dbg (m.map Sigma.fst) ((serMsg m []).take k) 0 = .abort) :=
  (stable_msg (m.map Sigma.fst)).prefix_fails dbg (C02_stream_round_trip dbg m hm) hk

/-- **C02.** With assertions on, decoding arbitrary (even corrupt) bytes as arbitrary types never reads outside the buffer, and a
successful decode never moves the cursor past its end. -/
theorem C02_corrupt_safe (ts : List Ty) (buf : List Byte) :
    deserMsg true ts buf 0 ≠ .ub ∧ ∀ m p, deserMsg true ts buf 0 = .ok (m, p) → p ≤ buf.length :=
  ⟨(stable_msg ts).noub buf 0, fun m p h => (stable_msg ts).le true buf 0 m p (Nat.zero_le _) h⟩

/-- A message with a domain's rank, its convex hull and its generators, as `DistributedTessellator` sends it. -/
example : MsgFits [⟨.prim 4, (3 : BitVec 32)⟩, ⟨.rplc, sampleRPLC⟩, ⟨.vec (.prim 8), [1, 2, 3]⟩, ⟨.seg (.point2 8), (⟨1, 2, 0⟩, ⟨3, 4, 1⟩)⟩]
    ∧ 0 < (serMsg [⟨.prim 4, (3 : BitVec 32)⟩, ⟨.vec (.prim 8), [1, 2, 3]⟩] []).length := by
  refine ⟨?_, by decide⟩
  intro x hx
  simp at hx
  rcases hx with rfl | rfl | rfl | rfl <;> simp [Fits, sampleRPLC]

/-- **C03 fails**: deserializing `[1]` into a vector that holds `[5]` gives `[5, 1]`, not `[1]`. -/
theorem C03_replace_fails :
    ¬ ∀ (dbg : Bool) (t : Ty) (v dst : t.denote), Fits t v →
      deser dbg t dst (ser t v []) 0 = .ok (v, (ser t v []).length) := by
  intro h
  have h1 := h true (.vec (.prim 4)) [1#32] [5#32] (by simp [Fits])
  revert h1
  decide

/-- **C03, partial**: a fresh destination is replaced; and for a destination of primitive or point type the old contents never matter.
Missing from the full property: non-empty vectors, PLCs and ReducedPLCs (see `C03_replace_fails`). -/
theorem C03_replace_partial (dbg : Bool) (t : Ty) (v : t.denote) (hv : Fits t v) (post : List Byte) :
    deser dbg t t.fresh (ser t v [] ++ post) 0 = .ok (v, (ser t v []).length) ∧
    (∀ k, t = .prim k ∨ t = .point2 k ∨ t = .point3 k → ∀ dst : t.denote,
      deser dbg t dst (ser t v [] ++ post) 0 = .ok (v, (ser t v []).length)) := by
  have h := C01_round_trip dbg t v hv [] post
  refine ⟨by simpa using h, ?_⟩
  rintro k (rfl | rfl | rfl) dst <;> exact h

/-- What the code does instead: a vector destination keeps its old contents in front. -/
theorem C03_vector_appends (dbg : Bool) (t : Ty) (v dst : List t.denote) (hv : Fits (.vec t) v) (pre post : List Byte) :
    deser dbg (.vec t) dst (ser (.vec t) v pre ++ post) pre.length = .ok (dst ++ v, (ser (.vec t) v pre).length) := by
  have h := deserVec_spec dbg (appends_ser t) t.fresh v hv.1 (fun a ha => inverts_ser dbg t a (hv.2 a ha)) dst pre post
  rw [appends_ser (.vec t) v pre]
  simpa [deser, ser] using h

end Verif.Serialize
