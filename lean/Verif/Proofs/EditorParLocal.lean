import Verif.Proofs.EditorPar
/- What one process does with the mask it receives. -/
namespace Verif.Editor
open Verif Verif.Mesh Verif.Internal Verif.Mpi

section
variable {R K : Type} [Field K] [LinearOrder K]
  {m : Tess R} {dist : List R → List R → K} {collin : List R → List R → List R → Bool} {tol : K} {sc : Scan K}

omit [Field K] in
theorem keys_of_scan (hc : Consistent 2 m) (hp : Planar m) (hs : ScanOK 2 m dist sc (m.cells.flatten.map fun s => fk m (posID s))) : Keys m sc.keys := by
  refine ⟨hs.nums.nodup, hs.nums.ids, ?_, ?_⟩
  · intro a b
    rw [hs.nums.keys, List.mem_map]
    constructor
    · rintro ⟨s, h1, h2⟩
      have hl := flatten_lt hc s h1
      exact ⟨_, hl, joins_of_fk hp hl (by rw [h2]; exact edgeKey_cases a b)⟩
    · rintro ⟨f, hf, hj⟩
      obtain ⟨s, h1, h2⟩ := face_in_cell hc hf
      exact ⟨s, h1, by rw [h2]; exact fk_of_joins hj⟩
  · intro e he
    rw [hs.nums.keys, List.mem_map] at he
    obtain ⟨s, h1, rfl⟩ := he
    have hl := flatten_lt hc s h1
    obtain ⟨x, y, hxy, hne⟩ := hp.face hl
    have hmem := hc.faces_lt _ (face_mem hl)
    rw [hxy] at hmem
    have hx := hmem x (by simp)
    have hy := hmem y (by simp)
    rw [fk_of hxy]
    unfold edgeKey
    split <;> simp <;> omega

/-- The edges that a process has flagged by itself: `good` is being short and away from corners. -/
abbrev OwnFlags (m : Tess R) (dist : List R → List R → K) (collin : List R → List R → List R → Bool) (tol : K) (sc : Scan K) (fl : Flags) : Prop :=
  FlagInv sc.idx (fun i => ShortEdge m dist tol (edgeAt sc.idx i) ∧ ¬ Corner m collin (edgeAt sc.idx i).1 ∧ ¬ Corner m collin (edgeAt sc.idx i).2)
    (numNodes 2 m) sc.idx.length fl

theorem finish_spec (dbg : Bool) {fl : Flags} {pm : KMap Nat} {es : List Edge} {mask recv : List (BitVec 32)} {q : Nat} {sn : List Nat}
    (hc : Consistent 2 m) (hcm : CommOK 2 m) (hp : Planar m) (hs : ScanOK 2 m dist sc (m.cells.flatten.map fun s => fk m (posID s)))
    (h : OwnFlags m dist collin tol sc fl) (hnb : m.neighborDomains = [q]) (hsn : m.sharedNodes = [sn]) (hn : sn.Nodup) (hpm : Positions sn pm)
    (hes : ∀ x, x ∈ es ↔ IsShared m sn x) (hrl : recv.length = es.length) (hrb : ∀ y ∈ recv, y.toNat ≤ 1) :
    ∃ m' kn kf s, finish dbg 2 m ⟨sc, fl, [⟨pm, es, mask⟩], [recv]⟩ = .ok m' ∧ Merged 2 m kn kf (old s.coll) m' ∧ m'.neighborDomains = m.neighborDomains ∧
      m'.boundaryNodes = m.boundaryNodes ∧ m'.boundaryFaces = m.boundaryFaces ∧
      ((∀ n, n < numNodes 2 m → old s.coll n = n) → m' = m) ∧
      (∃ good, FlagInv sc.idx good (numNodes 2 m) sc.idx.length s) ∧
      (∀ k, k < sc.idx.length → (old s.emask k = 0 ↔ old fl.emask k = 0 ∧
        ∀ (j : Nat) (x : Edge) (y : BitVec 32), es[j]? = some x → recv[j]? = some y → eno sc.keys (old sn x.1) (old sn x.2) = k → y.toNat = 0)) ∧
      ∀ n, n < numNodes 2 m → old s.coll n ≠ n → Stays sn (old s.coll n) n := by
  have hk := keys_of_scan hc hp hs
  have hil : sc.idx.length = sc.keys.length := by rw [hs.idx, List.length_map]
  have hlt : ∀ n ∈ sn, n < numNodes 2 m := hcm.nodes_lt sn (by rw [hsn]; simp)
  have hbits : ∀ i, old fl.emask i ≤ 1 := by
    intro i
    by_cases hi : i < sc.idx.length
    · rcases h.edges i hi with a | ⟨a, _⟩ <;> omega
    · simp [old, h.emask_len, hi, List.getElem?_eq_none]
  obtain ⟨em, e1, e2, e3, e4⟩ := mergeMask_spec dbg hk hn hlt (recv := recv) es 0 fl.emask (fun x hx => (hes x).1 hx) (by rw [h.emask_len, hil]) (by omega)
  have e4 := e4 hbits hrb
  simp only [Nat.zero_add] at e3
  have heml : em.length = sc.idx.length := by rw [e2, h.emask_len]
  have hedge : ∀ k, k < sc.idx.length → (edgeAt sc.idx k).1 < (edgeAt sc.idx k).2 ∧ (edgeAt sc.idx k).2 < numNodes 2 m := by
    intro k hkl
    refine hk.ord _ ?_
    rw [← hs.idx]
    unfold edgeAt
    rw [← List.getElem_eq_getD (h := hkl)]
    exact List.getElem_mem hkl
  obtain ⟨nm, s, r1, r2, r3, r4, r5, r6⟩ := rebuild_spec dbg (maps := [pm]) (em := em) (Rule := Stays sn) h heml (fun k _ h0 => ((e3 k).1 h0).1)
    (fun k hkl => by have := hedge k hkl; omega) (fun k hkl _ => keepDel_spec dbg hn hpm (hedge k hkl).1) sc.idx.length 0
    (List.replicate (numNodes 2 m) 1) (Flags.init sc.idx.length (numNodes 2 m)) (by omega) (flagInv_init _ _ _) (by simp) (by
      intro x hx; simp [Flags.init]) (by
      intro k hkl
      simp only [Flags.init, old_replicate hkl]; omega) (by
      intro x hx hne
      exact absurd (old_range hx) hne)
  have hmerge : mergeAll dbg (m.nodes.length / 2) m (⟨sc, fl, [⟨pm, es, mask⟩], [recv]⟩ : ParState K) = .ok em := by
    unfold mergeAll
    rw [hnb, hsn]
    simp only [List.length_singleton, List.range_one]
    rw [Exch.foldlM_one]
    simp only [Res.bind_eq]
    rw [rd_lt (by simp), Res.bind_ok, rd_lt (by simp), Res.bind_ok, rd_lt (by simp), Res.bind_ok]
    exact e1
  have hemask : s.emask = em := by
    refine List.ext_getElem (by rw [r2.emask_len, heml]) ?_
    intro k h1 h2
    have hk' : k < sc.idx.length := by omega
    have a := r5 k hk'
    have b := e4 k
    rw [← old_lt h1, ← old_lt h2]
    rcases r2.edges k hk' with c | ⟨c, _⟩ <;> omega
  have hflag : ∀ k, k < sc.idx.length → (old s.emask k = 0 ↔ old fl.emask k = 0 ∧
        ∀ (j : Nat) (x : Edge) (y : BitVec 32), es[j]? = some x → recv[j]? = some y → eno sc.keys (old sn x.1) (old sn x.2) = k → y.toNat = 0) := by
    intro k hkl; rw [r5 k hkl]; exact e3 k
  have hfin : finish dbg 2 m (⟨sc, fl, [⟨pm, es, mask⟩], [recv]⟩ : ParState K) = if fl.clean = true ∨ em.sum = sc.keys.length then .ok m else (do
      let nm := nm.map fun x => decide (x ≠ 0)
      let fm ← faceMask dbg 1 sc.keys em m.faces
      let nodeMap ← composeMap s.coll 0 (m.nodes.length / 2) (rankMap nm 0)
      Res.assert dbg (nm.countP id < m.nodes.length / 2)
      cleanMesh dbg 2 m (List.replicate m.cells.length 1) fm nm (List.range m.cells.length) (rankMap fm 0) nodeMap) := by
    unfold finish
    rw [Res.bind_eq, hmerge, Res.bind_ok]
    simp only []
    split
    · rfl
    · simp only [List.map_cons, List.map_nil, if_true]
      rw [hil] at r1
      rw [Res.bind_eq]
      have : rebuild dbg [pm] sc.idx em 0 sc.keys.length (List.replicate (m.nodes.length / 2) 1, List.range (m.nodes.length / 2)) = .ok (nm, s.coll) := r1
      rw [this, Res.bind_ok]
  by_cases hclean : fl.clean = true ∨ em.sum = sc.keys.length
  · have hno : ∀ k, k < sc.idx.length → old s.emask k ≠ 0 := by
      intro k hkl h0
      rcases hclean with hcl | hcl
      · exact h.clean.1 hcl k hkl ((hflag k hkl).1 h0).1
      · rw [hemask] at h0
        have hone : ∀ l : List Nat, (∀ i, old l i ≤ 1) → l.sum = l.length → ∀ i, i < l.length → old l i = 1 := by
          intro l
          induction l with
          | nil => intro _ _ i hi; simp at hi
          | cons a l ih =>
            intro hb hsum i hi
            have hb0 : a ≤ 1 := hb 0
            have hbl : ∀ i, old l i ≤ 1 := fun i => hb (i + 1)
            have hle : ∀ l : List Nat, (∀ i, old l i ≤ 1) → l.sum ≤ l.length := by
              intro l
              induction l with
              | nil => simp
              | cons b l ih =>
                intro hb
                have h1 : b ≤ 1 := hb 0
                have h2 := ih fun i => hb (i + 1)
                simp only [List.sum_cons, List.length_cons]; omega
            have hll := hle l hbl
            simp only [List.sum_cons, List.length_cons] at hsum
            cases i with
            | zero => show a = 1; omega
            | succ i => exact ih hbl (by omega) i (by simpa using hi)
        have := hone em e4 (by rw [hcl, heml, hil]) k (by omega)
        omega
    have hfix : ∀ n, n < numNodes 2 m → old s.coll n = n := by
      intro n hn'
      refine r2.kept_self n hn' fun h0 => ?_
      obtain ⟨k, hkl, h1, _⟩ := r2.gone n hn' h0
      exact hno k hkl h1
    exact ⟨m, _, _, s, by rw [hfin, if_pos hclean], merged_refl hc hcm hp hfix, rfl, rfl, rfl, fun _ => rfl, ⟨_, r2⟩, hflag, r6⟩
  · have hdirty : s.clean = false := by
      rw [Bool.eq_false_iff]
      intro hcl
      have hno := r2.clean.1 hcl
      apply hclean
      right
      have hrep : em = List.replicate em.length 1 := by
        refine List.ext_getElem (by simp) ?_
        intro k h1 h2
        have hk' : k < sc.idx.length := by omega
        have a := hno k hk'
        have b := e4 k
        rw [hemask] at a
        rw [← old_lt h1]
        simp only [List.getElem_replicate]
        omega
      rw [hrep]
      simp [heml, hil]
    obtain ⟨fm, nodeMap, m', kn, kf, f1, f2, f3, f4, hmg, b1, b2, b3⟩ := cleaned_merged dbg hc hcm hp hs r2 hdirty
    have hnm : (nm.map fun x => decide (x ≠ 0)) = s.nmask.map fun x => decide (x ≠ 0) := by
      refine List.ext_getElem (by simp [r3, r2.nmask_len]) ?_
      intro k h1 h2
      simp only [List.length_map] at h1 h2
      simp only [List.getElem_map]
      rw [← old_lt h1, ← old_lt h2]
      have := r4 k (by omega)
      by_cases hz : old nm k = 0
      · rw [hz, this.1 hz]
      · have hz' : old s.nmask k ≠ 0 := fun e => hz (this.2 e)
        simp [hz, hz']
    refine ⟨m', kn, kf, s, ?_, hmg, b3, b1, b2, ?_, ⟨_, r2⟩, hflag, r6⟩
    · rw [hfin, if_neg hclean]
      simp only [Res.bind_eq, hnm]
      rw [← hemask, f1, Res.bind_ok]
      have f2' : composeMap s.coll 0 (m.nodes.length / 2) (rankMap (s.nmask.map fun x => decide (x ≠ 0)) 0) = .ok nodeMap := f2
      rw [f2', Res.bind_ok]
      have f3' : (s.nmask.map fun x => decide (x ≠ 0)).countP id < m.nodes.length / 2 := f3
      rw [Res.assert_true dbg f3', Res.bind_ok]
      exact f4
    · intro hfix
      exfalso
      have : s.clean = true := by
        rw [r2.clean]
        intro k hkl h0
        have h1 := (hedge k hkl)
        have := (flags_merge_iff hc hp hs r2 (a := (edgeAt sc.idx k).1) (b := (edgeAt sc.idx k).2) (i := k) (by omega) (by omega) h1.2 (by omega) (Or.inl rfl)).1 h0
        rw [hfix _ (by omega), hfix _ h1.2] at this
        omega
      rw [hdirty] at this
      simp at this
end
end Verif.Editor
