import Verif.Proofs.EditorParExchange
import Verif.Proofs.Hull3
/- What a neighbour that is not the first in the list of a process receives from it. -/
namespace Verif.Editor
open Verif Verif.Mesh Verif.Internal Verif.Mpi

/-- A message that begins with the mask `w` and goes on. -/
def Begins (w : List (BitVec 32)) (c : List Serialize.Byte) : Prop := ∃ rest, rest ≠ [] ∧ c = Serialize.ser (.vec (.prim 4)) w [] ++ rest

theorem sendMasks_begins {w : List (BitVec 32)} : ∀ (ws : List (List (BitVec 32))) (buf : List Serialize.Byte) (ms : List (Nat × Option (List Serialize.Byte))),
    sendMasks ws buf = .ok ms → (∃ r, buf = Serialize.ser (.vec (.prim 4)) w [] ++ r) → buf.length + (ws.map fun x => 4 + 4 * x.length).sum < 2 ^ 31 →
    ms.length = ws.length ∧ ∀ sz d, (sz, d) ∈ ms → 0 < sz ∧ ∃ c, d = some c ∧ Begins w c
  | [], buf, ms, h, _, _ => by
    simp only [sendMasks, Res.ok.injEq] at h
    subst h
    simp
  | x :: ws, buf, ms, h, ⟨r, hr⟩, hl => by
    simp only [List.map_cons, List.sum_cons] at hl
    have ha : Serialize.ser (.vec (.prim 4)) x buf = buf ++ Serialize.ser (.vec (.prim 4)) x [] := Serialize.appends_ser (.vec (.prim 4)) x buf
    have hs := ser4_length x (by omega)
    have hlen : (Serialize.ser (.vec (.prim 4)) x buf).length = buf.length + (4 + 4 * x.length) := by rw [ha, List.length_append, hs]
    have hmod : (Serialize.ser (.vec (.prim 4)) x buf).length % 2 ^ 32 = buf.length + (4 + 4 * x.length) := by rw [hlen]; exact Nat.mod_eq_of_lt (by omega)
    rw [sendMasks] at h
    simp only [hmod] at h
    rw [if_neg (by omega), if_neg (by omega)] at h
    obtain ⟨ms', e1, e2⟩ := Res.bind_eq_ok.1 h
    simp only [Res.pure_eq, Res.ok.injEq] at e2
    obtain ⟨msg, e3, e4⟩ := Res.bind_eq_ok.1 (by simpa only [Res.bind_eq, Res.bind_ok] using h)
    obtain ⟨i1, i2⟩ := sendMasks_begins ws _ msg e3 ⟨r ++ Serialize.ser (.vec (.prim 4)) x [], by rw [ha, hr, List.append_assoc]⟩ (by rw [hlen]; omega)
    simp only [Res.pure_eq, Res.ok.injEq] at e4
    subst e4
    refine ⟨by simp [i1], ?_⟩
    intro sz d hm
    rcases List.mem_cons.1 hm with e | e
    · simp only [Prod.mk.injEq] at e
      obtain ⟨rfl, rfl⟩ := e
      refine ⟨by omega, _, rfl, r ++ Serialize.ser (.vec (.prim 4)) x [], ?_, ?_⟩
      · intro hnil
        have := congrArg List.length hnil
        rw [List.length_append, hs] at this
        simp at this
      · rw [← hlen, List.take_length, ha, hr, List.append_assoc]
    · exact i2 sz d e

theorem sendAll_all {β : Type} {p q : Nat} {A : Nat → Prop} {B : List β → Prop} : ∀ (qs : List Nat) (ms : List (Nat × Option (List β)))
    (S : Nat → Nat → List Nat) (T : Nat → Nat → List (List β)), (∀ x ∈ S p q, A x) → (∀ x ∈ T p q, B x) →
    (∀ (j sz : Nat) (d : Option (List β)), qs[j]? = some q → ms[j]? = some (sz, d) → A sz ∧ ∀ c, d = some c → B c) →
    (∀ x ∈ (sendAll p qs ms S T).1 p q, A x) ∧ ∀ x ∈ (sendAll p qs ms S T).2 p q, B x
  | [], ms, S, T, h1, h2, _ => by simpa [sendAll] using ⟨h1, h2⟩
  | a :: qs, [], S, T, h1, h2, _ => by simpa [sendAll] using ⟨h1, h2⟩
  | a :: qs, (sz, d) :: ms, S, T, h1, h2, h => by
    have hS : ∀ x ∈ enqueue S p a sz p q, A x := by
      unfold enqueue
      by_cases hq : q = a
      · subst hq
        simp only [and_self, if_true]
        intro x hx
        rcases List.mem_append.1 hx with hx | hx
        · exact h1 x hx
        · rw [List.mem_singleton.1 hx]
          exact (h 0 sz d rfl rfl).1
      · rw [if_neg (by simp [hq])]; exact h1
    have hrec : ∀ (j sz : Nat) (d : Option (List β)), qs[j]? = some q → ms[j]? = some (sz, d) → A sz ∧ ∀ c, d = some c → B c := fun j sz d a b => h (j + 1) sz d a b
    cases d with
    | none => rw [sendAll]; exact sendAll_all qs ms _ _ hS h2 hrec
    | some c =>
      rw [sendAll]
      refine sendAll_all qs ms _ _ hS ?_ hrec
      unfold enqueue
      by_cases hq : q = a
      · subst hq
        simp only [and_self, if_true]
        intro x hx
        rcases List.mem_append.1 hx with hx | hx
        · exact h2 x hx
        · rw [List.mem_singleton.1 hx]
          exact (h 0 sz _ rfl rfl).2 c rfl
      · rw [if_neg (by simp [hq])]; exact h2

theorem mem_dequeue {α : Type} {Q : Nat → Nat → List α} {a b p q : Nat} {x : α} (h : x ∈ dequeue Q a b p q) : x ∈ Q p q := by
  unfold dequeue at h
  split at h
  · exact List.mem_of_mem_tail h
  · exact h

section
variable {R K : Type} [Field K] [LinearOrder K] [IsStrictOrderedRing K]
  {n : Nat} {mesh : Nat → Tess R} {dist : List R → List R → K} {collin : List R → List R → List R → Bool} {tol : K}

omit [IsStrictOrderedRing K] in
theorem onData_begins (dbg : Bool) {w : List (BitVec 32)} (hw : w.length < 2 ^ 31) {c : List Serialize.Byte} (hc : Begins w c) {p k sz : Nat} {s s' : ParState K}
    (h : (cleanProg dbg true 2 mesh dist collin tol).onData p s k sz c = .ok s') : dbg = false ∧ k < s.recv.length ∧ s' = { s with recv := s.recv.set k w } := by
  obtain ⟨rest, hne, rfl⟩ := hc
  simp only [cleanProg] at h
  split at h
  · simp at h
  · rename_i hsz
    have hd := Serialize.C03_vector_appends dbg (.prim 4) w [] ⟨by omega, fun _ _ => trivial⟩ []
      (rest ++ List.replicate (sz - (Serialize.ser (.vec (.prim 4)) w [] ++ rest).length) 0)
    simp only [List.length_nil, List.nil_append] at hd
    rw [← List.append_assoc] at hd
    rw [Res.bind_eq, hd, Res.bind_ok] at h
    simp only [] at h
    obtain ⟨_, e1, h⟩ := Res.bind_eq_ok.1 h
    obtain ⟨recv, e2, h⟩ := Res.bind_eq_ok.1 h
    simp only [Res.pure_eq, Res.ok.injEq] at h
    obtain ⟨hk, rfl⟩ := wr_eq_ok.1 e2
    refine ⟨?_, hk, h.symm⟩
    cases dbg with
    | false => rfl
    | true =>
      exfalso
      rw [Res.assert_debug_false] at e1
      · simp at e1
      · have := List.length_pos_iff.2 hne
        simp only [List.length_append, List.length_replicate]
        omega

omit [IsStrictOrderedRing K] in
theorem onData_keeps {dbg : Bool} {c : List Serialize.Byte} {p k sz : Nat} {s s' : ParState K}
    (h : (cleanProg dbg true 2 mesh dist collin tol).onData p s k sz c = .ok s') {i : Nat} (hi : i ≠ k) : s'.recv[i]? = s.recv[i]? := by
  simp only [cleanProg] at h
  split at h
  · simp at h
  · obtain ⟨x, _, h⟩ := Res.bind_eq_ok.1 h
    obtain ⟨_, _, h⟩ := Res.bind_eq_ok.1 h
    obtain ⟨recv, e2, h⟩ := Res.bind_eq_ok.1 h
    simp only [Res.pure_eq, Res.ok.injEq] at h
    obtain ⟨hk, rfl⟩ := wr_eq_ok.1 e2
    rw [← h]
    simp only []
    exact List.getElem?_set_ne (Ne.symm hi)

/-- How far process `p` is, whose neighbour number `k0` sends messages that begin with `w`. -/
def Behind (dbg : Bool) (w : List (BitVec 32)) (k0 : Nat) : PS (ParState K) → Prop
  | .start => True
  | .size k s => k0 < k → dbg = false ∧ s.recv[k0]? = some w
  | .data k _ s => k0 < k → dbg = false ∧ s.recv[k0]? = some w
  | .wait s => dbg = false ∧ s.recv[k0]? = some w
  | .done s => dbg = false ∧ s.recv[k0]? = some w

omit [IsStrictOrderedRing K] in
theorem behind (dbg : Bool) {p q k0 : Nat} {w : List (BitVec 32)} (hk0 : (mesh p).neighborDomains[k0]? = some q) (hw : w.length < 2 ^ 31)
    (hmsg : ∀ ms s, (cleanProg dbg true 2 mesh dist collin tol).post q = .ok (ms, s) → ∀ (j sz : Nat) (d : Option (List Serialize.Byte)), (mesh q).neighborDomains[j]? = some p →
      ms[j]? = some (sz, d) → 0 < sz ∧ ∃ c, d = some c ∧ Begins w c)
    {k : Nat} {y : Sys (ParState K) Serialize.Byte} (h : Reach (cleanProg dbg true 2 mesh dist collin tol) n k y) :
    (∀ sz ∈ y.sizeQ q p, 0 < sz) ∧ (∀ c ∈ y.dataQ q p, Begins w c) ∧ Behind dbg w k0 (y.proc p) := by
  induction h with
  | init => exact ⟨by simp [init], by simp [init], trivial⟩
  | @step k r y y' hr hlt hs ih =>
    obtain ⟨i1, i2, i3⟩ := ih
    have stay : ∀ {x : PS (ParState K)}, (r = p → Behind dbg w k0 x) → Behind dbg w k0 (setProc y.proc r x p) := by
      intro x hx
      unfold setProc
      split
      · rename_i e; exact hx e.symm
      · exact i3
    have hnb : ∀ r, (cleanProg dbg true 2 mesh dist collin tol).nbrs r = (mesh r).neighborDomains := fun _ => rfl
    unfold step at hs
    split at hs
    · -- start
      rename_i hp
      simp only [Option.some.injEq] at hs
      obtain ⟨⟨ms, s⟩, e1, hs⟩ := Res.bind_eq_ok.1 hs
      simp only [] at hs
      split at hs
      · simp only [Res.pure_eq, Res.ok.injEq] at hs
        subst hs
        simp only []
        refine ⟨?_, ?_, stay fun _ => ?_⟩
        · by_cases hrq : r = q
          · subst hrq
            exact (sendAll_all (A := fun x => 0 < x) (B := Begins w) _ _ _ _ i1 i2 fun j sz d h1 h2 => by
              obtain ⟨a, c, b1, b2⟩ := hmsg ms s e1 j sz d h1 h2
              exact ⟨a, fun c' hc' => by rw [b1] at hc'; cases hc'; exact b2⟩).1
          · rw [(sendAll_other r _ ms _ _ q p (Or.inl (Ne.symm hrq))).1]; exact i1
        · by_cases hrq : r = q
          · subst hrq
            exact (sendAll_all (A := fun x => 0 < x) (B := Begins w) _ _ _ _ i1 i2 fun j sz d h1 h2 => by
              obtain ⟨a, c, b1, b2⟩ := hmsg ms s e1 j sz d h1 h2
              exact ⟨a, fun c' hc' => by rw [b1] at hc'; cases hc'; exact b2⟩).2
          · rw [(sendAll_other r _ ms _ _ q p (Or.inl (Ne.symm hrq))).2]; exact i2
        · intro h; omega
      · simp at hs
    · -- size
      rename_i k s hp
      split at hs
      · rename_i hnone
        simp only [Option.some.injEq, Res.ok.injEq] at hs
        subst hs
        refine ⟨i1, i2, stay fun e => ?_⟩
        subst e
        rw [hp] at i3
        refine i3 ?_
        rw [hnb] at hnone
        by_contra hcon
        have := (List.getElem?_eq_some_iff.1 hk0).1
        have := List.getElem?_eq_none_iff.1 hnone
        omega
      · rename_i a ha
        split at hs
        · simp at hs
        · rename_i sz rest hq
          simp only [Option.some.injEq] at hs
          obtain ⟨more, e1, hs⟩ := Res.bind_eq_ok.1 hs
          simp only [Res.pure_eq, Res.ok.injEq] at hs
          simp only [cleanProg, Res.pure_eq, Res.ok.injEq] at e1
          subst hs
          refine ⟨fun x hx => i1 x (mem_dequeue hx), i2, stay fun e => ?_⟩
          subst e
          rw [hp] at i3
          split
          · exact i3
          · rename_i hmore
            intro hk
            by_cases hkk : k0 < k
            · exact i3 hkk
            · exfalso
              have : k = k0 := by omega
              subst this
              rw [hnb, hk0] at ha
              simp only [Option.some.injEq] at ha
              subst ha
              have := i1 sz (by rw [hq]; simp)
              rw [← e1] at hmore
              simp [this] at hmore
    · -- data
      rename_i k sz s hp
      split at hs
      · simp at hs
      · rename_i a ha
        split at hs
        · simp at hs
        · rename_i c rest hq
          simp only [Option.some.injEq] at hs
          obtain ⟨s', e1, hs⟩ := Res.bind_eq_ok.1 hs
          simp only [Res.pure_eq, Res.ok.injEq] at hs
          subst hs
          refine ⟨i1, fun x hx => i2 x (mem_dequeue hx), stay fun e => ?_⟩
          subst e
          rw [hp] at i3
          intro hk
          by_cases hkk : k = k0
          · subst hkk
            rw [hnb, hk0] at ha
            simp only [Option.some.injEq] at ha
            subst ha
            obtain ⟨a1, a2, a3⟩ := onData_begins dbg hw (i2 c (by rw [hq]; simp)) e1
            refine ⟨a1, ?_⟩
            rw [a3]
            simp [a2]
          · obtain ⟨b1, b2⟩ := i3 (by omega)
            exact ⟨b1, by rw [onData_keeps e1 (Ne.symm hkk)]; exact b2⟩
    · -- wait
      rename_i s hp
      split at hs
      · simp at hs
      · split at hs
        · simp only [Option.some.injEq, Res.ok.injEq] at hs
          subst hs
          refine ⟨i1, i2, stay fun e => ?_⟩
          subst e
          rw [hp] at i3
          exact i3
        · simp at hs
    · simp at hs

/-- The masks of a process with any number of neighbours are no longer than its face list. -/
theorem shares_small (dbg : Bool) {m : Tess R} (hc : Consistent 2 m) (hcm : CommOK 2 m) (hp : Planar m) (hb : ClosedBoundary m)
    (hsym : ∀ p q, dist p q = dist q p) (hnn : ∀ p q, 0 ≤ dist p q) (hcol : ∀ p q r, collin p q r = collin p r q) (ht : 0 < tol)
    (hn : ∀ l ∈ m.sharedNodes, l.Nodup) (hl : m.sharedNodes.length = m.neighborDomains.length) :
    ∃ sc corner fl sh, flagEdges dbg 2 m dist collin tol = .ok (sc, corner, fl) ∧ shares dbg (m.nodes.length / 2) m sc.keys fl.emask = .ok sh ∧
      sh.length = m.neighborDomains.length ∧ ∀ s ∈ sh, s.mask.length ≤ m.faces.length := by
  obtain ⟨sc, corner, fl, e, hs, h⟩ := flagEdges_spec dbg hc hp hb hsym hnn hcol ht
  have hk := keys_of_scan hc hp hs
  have hil : sc.idx.length = sc.keys.length := by rw [hs.idx, List.length_map]
  obtain ⟨sh, s1, s2, s3⟩ := mapM_spec (g := fun k => do
      let sn ← rd m.sharedNodes k
      share dbg (m.nodes.length / 2) sc.keys fl.emask sn) (P := fun _ s => s.mask.length ≤ m.faces.length) (List.range m.neighborDomains.length) (by
    intro k hk'
    have hkl : k < m.sharedNodes.length := by rw [hl]; simpa using hk'
    obtain ⟨pm, es, t1, t2, t3, t4, t5⟩ := share_spec dbg hk (sn := m.sharedNodes[k]) (emask := fl.emask) (by rw [h.emask_len, hil])
      (hn _ (List.getElem_mem hkl)) (hcm.nodes_lt _ (List.getElem_mem hkl))
    refine ⟨⟨pm, es, es.map fun x => BitVec.ofNat 32 (old fl.emask (eno sc.keys (old m.sharedNodes[k] x.1) (old m.sharedNodes[k] x.2)))⟩, ?_, ?_⟩
    · rw [Res.bind_eq, rd_lt hkl, Res.bind_ok]
      exact t1
    · simp only [List.length_map]
      exact shared_count (hn _ (List.getElem_mem hkl)) t3 t5)
  refine ⟨sc, corner, fl, sh, e, s1, by simpa using s2, ?_⟩
  intro s hs'
  obtain ⟨i, hi, rfl⟩ := List.mem_iff_getElem.1 hs'
  exact s3 i (by omega) hi

theorem post_begins (dbg : Bool) {p q a : Nat} {rest : List Nat} (hnb : (mesh q).neighborDomains = a :: rest) (hpa : p ≠ a)
    (hc : Consistent 2 (mesh q)) (hcm : CommOK 2 (mesh q)) (hp : Planar (mesh q)) (hb : ClosedBoundary (mesh q))
    (hsym : ∀ p q, dist p q = dist q p) (hnn : ∀ p q, 0 ≤ dist p q) (hcol : ∀ p q r, collin p q r = collin p r q) (ht : 0 < tol)
    (hn : ∀ l ∈ (mesh q).sharedNodes, l.Nodup) (hl : (mesh q).sharedNodes.length = (mesh q).neighborDomains.length)
    (hsm : (mesh q).neighborDomains.length * (4 + 4 * (mesh q).faces.length) < 2 ^ 31) :
    ∃ sc corner fl s0 sh, flagEdges dbg 2 (mesh q) dist collin tol = .ok (sc, corner, fl) ∧
      shares dbg ((mesh q).nodes.length / 2) (mesh q) sc.keys fl.emask = .ok (s0 :: sh) ∧ s0.mask.length < 2 ^ 31 ∧
      ∀ ms s, (cleanProg dbg true 2 mesh dist collin tol).post q = .ok (ms, s) → ∀ (j sz : Nat) (d : Option (List Serialize.Byte)),
        (mesh q).neighborDomains[j]? = some p → ms[j]? = some (sz, d) → 0 < sz ∧ ∃ c, d = some c ∧ Begins s0.mask c := by
  obtain ⟨sc, corner, fl, sh, e1, e2, e3, e4⟩ := shares_small dbg hc hcm hp hb hsym hnn hcol ht hn hl
  cases sh with
  | nil => rw [hnb] at e3; simp at e3
  | cons s0 sh =>
    have h0 := e4 s0 (by simp)
    rw [← e3, List.length_cons, Nat.add_mul] at hsm
    have hsum : ∀ l : List Share, (∀ s ∈ l, s.mask.length ≤ (mesh q).faces.length) →
        ((l.map Share.mask).map fun x => 4 + 4 * x.length).sum ≤ l.length * (4 + 4 * (mesh q).faces.length) := by
      intro l
      induction l with
      | nil => simp
      | cons s l ih =>
        intro h
        have h1 := ih fun s hs => h s (by simp [hs])
        have h2 := h s (by simp)
        simp only [List.map_cons, List.sum_cons, List.length_cons, Nat.add_mul]
        omega
    have hss := hsum sh fun s hs => e4 s (by simp [hs])
    have hs0 := ser4_length s0.mask (by omega)
    refine ⟨sc, corner, fl, s0, sh, e1, e2, by omega, ?_⟩
    intro ms s hpost
    simp only [cleanProg, Res.bind_eq, Res.pure_eq, Res.assert_true dbg ht, Res.bind_ok, e1, e2, Bool.true_eq_false, false_and, if_false, List.map_cons] at hpost
    obtain ⟨ms', hms, hpost⟩ := Res.bind_eq_ok.1 hpost
    simp only [Res.ok.injEq, Prod.mk.injEq] at hpost
    obtain ⟨rfl, _⟩ := hpost
    rw [sendMasks] at hms
    have hmod : (Serialize.ser (.vec (.prim 4)) s0.mask []).length % 2 ^ 32 = 4 + 4 * s0.mask.length := by rw [hs0]; exact Nat.mod_eq_of_lt (by omega)
    simp only [hmod] at hms
    rw [if_neg (by omega), if_neg (by omega)] at hms
    simp only [Res.bind_eq, Res.bind_ok] at hms
    obtain ⟨ms'', h1, h2⟩ := Res.bind_eq_ok.1 hms
    simp only [Res.pure_eq, Res.ok.injEq] at h2
    subst h2
    obtain ⟨_, i2⟩ := sendMasks_begins _ _ _ h1 ⟨[], (List.append_nil _).symm⟩ (by rw [hs0]; omega)
    intro j sz d hj hm
    cases j with
    | zero =>
      rw [hnb] at hj
      simp only [List.getElem?_cons_zero, Option.some.injEq] at hj
      exact absurd hj.symm hpa
    | succ j => exact i2 sz d (List.mem_of_getElem? (by simpa using hm))
end
end Verif.Editor
