import Verif.Proofs.EditorParLocal
/- The two sides of a border after cleaning. -/
namespace Verif.Editor
open Verif Verif.Mesh
variable {R : Type}

theorem move_same {m q m1 q1 : Tess R} {own own' tgt tgt' : Nat → Nat} {kn kf kn' kf' : List Nat} (hM : Merged 2 m kn kf tgt m1) (hM' : Merged 2 q kn' kf' tgt' q1)
    (h : Joint m q own own' tgt) (h' : Joint q m own' own tgt') (hn : (sharedN m).Nodup) (hn' : (sharedN q).Nodup)
    (hlt : ∀ n ∈ sharedN m, n < numNodes 2 m) (hlt' : ∀ n ∈ sharedN q, n < numNodes 2 q) (hl : (sharedN m).length = (sharedN q).length) (he : SameEdges m q)
    {i j : Nat} (hi : i < (sharedN m).length) (hj : j < (sharedN m).length) (hij : i ≠ j) (ht : tgt (old (sharedN m) i) = old (sharedN m) j) :
    tgt' (old (sharedN q) i) = old (sharedN q) j := by
  have inj := fun {a b : Nat} (ha : a < (sharedN m).length) (hb : b < (sharedN m).length) => old_inj_nodup hn ha hb
  have inj' := fun {a b : Nat} (ha : a < (sharedN q).length) (hb : b < (sharedN q).length) => old_inj_nodup hn' ha hb
  have hiN := hlt _ (old_mem hi)
  have hne : tgt (old (sharedN m) i) ≠ old (sharedN m) i := by
    rw [ht]; exact fun e => hij (inj hj hi e).symm
  obtain ⟨j0, hj0, e0⟩ := h.front i hi hne
  have hji : j < i := by
    have : j = j0 := inj hj (by omega) (by rw [← ht, e0])
    omega
  have hself : tgt (old (sharedN m) j) = old (sharedN m) j := hM.tgt_self _ (by rw [← ht]; exact hM.tgt_mem _ hiN)
  obtain ⟨f, hf, hjn⟩ := h.edge _ hiN hne
  rw [ht] at hjn
  obtain ⟨w1, w2⟩ := (h.merged f _ _ hf hjn).1 (by rw [ht, hself])
  obtain ⟨f', hf', hjn'⟩ := (he i j hi hj).1 ⟨f, hf, hjn⟩
  have heq : tgt' (old (sharedN q) i) = tgt' (old (sharedN q) j) := by
    refine (h'.merged f' _ _ hf' hjn').2 ⟨w2 i j hi hj rfl rfl, ?_⟩
    intro a b ha hb ea eb
    rw [inj' ha (by omega) ea, inj' hb (by omega) eb]
    exact w1
  have hiN' := hlt' _ (old_mem (k := sharedN q) (i := i) (by omega))
  have hjN' := hlt' _ (old_mem (k := sharedN q) (i := j) (by omega))
  -- `j` stays
  by_cases hjs : tgt' (old (sharedN q) j) = old (sharedN q) j
  · rw [heq, hjs]
  · exfalso
    obtain ⟨x, hx, ex⟩ := h'.front j (by omega) hjs
    by_cases his : tgt' (old (sharedN q) i) = old (sharedN q) i
    · rw [heq, ex] at his
      have := inj' (by omega) (by omega) his
      omega
    · have := inj' (by omega) (by omega) (h'.once _ _ hiN' hjN' his hjs heq)
      exact hij this

theorem sameMoves {m q m1 q1 : Tess R} {own own' tgt tgt' : Nat → Nat} {kn kf kn' kf' : List Nat} (hM : Merged 2 m kn kf tgt m1) (hM' : Merged 2 q kn' kf' tgt' q1)
    (h : Joint m q own own' tgt) (h' : Joint q m own' own tgt') (hn : (sharedN m).Nodup) (hn' : (sharedN q).Nodup)
    (hlt : ∀ n ∈ sharedN m, n < numNodes 2 m) (hlt' : ∀ n ∈ sharedN q, n < numNodes 2 q) (hl : (sharedN m).length = (sharedN q).length)
    (he : SameEdges m q) (he' : SameEdges q m) : SameMoves m q tgt tgt' := by
  intro i j hi hj
  have inj := fun {a b : Nat} (ha : a < (sharedN m).length) (hb : b < (sharedN m).length) => old_inj_nodup hn ha hb
  have inj' := fun {a b : Nat} (ha : a < (sharedN q).length) (hb : b < (sharedN q).length) => old_inj_nodup hn' ha hb
  by_cases hij : i = j
  · subst hij
    constructor
    · intro e
      by_contra hcon
      obtain ⟨x, hx, ex⟩ := h'.front i (by omega) hcon
      have := move_same hM' hM h' h hn' hn hlt' hlt hl.symm he' (by omega) (by omega) (by omega : i ≠ x) ex
      rw [e] at this
      have := inj hi (by omega) this
      omega
    · intro e
      by_contra hcon
      obtain ⟨x, hx, ex⟩ := h.front i (by omega) hcon
      have := move_same hM hM' h h' hn hn' hlt hlt' hl he (by omega) (by omega) (by omega : i ≠ x) ex
      rw [e] at this
      have := inj' (by omega) (by omega) this
      omega
  · exact ⟨move_same hM hM' h h' hn hn' hlt hlt' hl he hi hj hij, move_same hM' hM h' h hn' hn hlt' hlt hl.symm he' (by omega) (by omega) hij⟩

theorem map_old_range (l : List Nat) : (List.range l.length).map (old l) = l := by
  refine List.ext_getElem (by simp) ?_
  intro i h1 h2
  simp [old_lt h2]

theorem filter_old (l : List Nat) (P : Nat → Bool) : l.filter P = ((List.range l.length).filter fun i => P (old l i)).map (old l) := by
  conv_lhs => rw [← map_old_range l, List.filter_map]
  rfl

theorem node_merged {m m1 : Tess R} {kn kf : List Nat} {tgt : Nat → Nat} (hc : Consistent 2 m) (h : Merged 2 m kn kf tgt m1) {n : Nat} (hn : n < kn.length) :
    node 2 m1 n = node 2 m (old kn n) := by
  have hlen : ∀ i ∈ kn, (node 2 m i).length = 2 := by
    intro i hi
    have := flatMap_node_length 2 m [i] (by simpa using h.kn_lt i hi) (by omega) hc.nodes_dvd
    simpa using this
  have := Exch.flatMap_nodeL (D := 2) (node 2 m) kn n hn hlen
  rw [← h.nodes] at this
  rw [old_lt hn]
  exact this

/-- The positions that remain, and what the new list holds. -/
theorem kept_positions {kn l l' : List Nat} (h : l'.map (old kn) = l.filter fun n => decide (n ∈ kn)) {π : List Nat}
    (hπ : π = (List.range l.length).filter fun i => decide (old l i ∈ kn)) :
    l'.length = π.length ∧ (∀ x, x < π.length → old kn (old l' x) = old l (old π x)) ∧ (∀ x, x < π.length → old π x < l.length ∧ old l (old π x) ∈ kn) ∧
      ∀ i, i < l.length → old l i ∈ kn → ∃ x, x < π.length ∧ old π x = i := by
  rw [filter_old, ← hπ] at h
  have hlen : l'.length = π.length := by simpa using congrArg List.length h
  refine ⟨hlen, ?_, ?_, ?_⟩
  · intro x hx
    have := congrArg (fun l => old l x) h
    rwa [old_map (by omega), old_map hx] at this
  · intro x hx
    have := old_mem hx
    rw [hπ] at this
    simp only [List.mem_filter, List.mem_range, decide_eq_true_eq] at this
    rw [hπ]
    exact this
  · intro i hi hk
    exact old_surj (by rw [hπ]; simp [hi, hk])

theorem agree_merged {m q m1 q1 : Tess R} {tgt tgt' : Nat → Nat} {kn kf kn' kf' : List Nat} (hc : Consistent 2 m) (hc' : Consistent 2 q)
    (hcm : CommOK 2 m) (hcm' : CommOK 2 q) (h1 : m.sharedNodes.length = 1) (h1' : q.sharedNodes.length = 1)
    (hM : Merged 2 m kn kf tgt m1) (hM' : Merged 2 q kn' kf' tgt' q1)
    (hfront : ∀ j, j < (sharedN m).length → ∃ i, i < (sharedN m).length ∧ tgt (old (sharedN m) j) = old (sharedN m) i)
    (hn : (sharedN m).Nodup) (hn' : (sharedN q).Nodup) (hA : Agree m q) (hS : SameMoves m q tgt tgt') : Agree m1 q1 := by
  have mapSingle : ∀ {l l' : List (List Nat)} {k : List Nat}, l.length = 1 → l'.map (·.map (old k)) = l.map (·.filter fun n => decide (n ∈ k)) →
      (l'.getD 0 []).map (old k) = (l.getD 0 []).filter fun n => decide (n ∈ k) := by
    intro l l' k h e
    have hl' : l'.length = 1 := by simpa [h] using congrArg List.length e
    obtain ⟨a, rfl⟩ := List.length_eq_one_iff.1 h
    obtain ⟨b, rfl⟩ := List.length_eq_one_iff.1 hl'
    simpa using e
  have hsf : m.sharedFaces.length = 1 := by rw [hcm.len, h1]
  have hsf' : q.sharedFaces.length = 1 := by rw [hcm'.len, h1']
  have eN : (sharedN m1).map (old kn) = (sharedN m).filter fun n => decide (n ∈ kn) := mapSingle h1 hM.sharedNodes
  have eN' : (sharedN q1).map (old kn') = (sharedN q).filter fun n => decide (n ∈ kn') := mapSingle h1' hM'.sharedNodes
  have eF : (sharedF m1).map (old kf) = (sharedF m).filter fun n => decide (n ∈ kf) := mapSingle hsf hM.sharedFaces
  have eF' : (sharedF q1).map (old kf') = (sharedF q).filter fun n => decide (n ∈ kf') := mapSingle hsf' hM'.sharedFaces
  have memN : ∀ {m : Tess R}, m.sharedNodes.length = 1 → sharedN m ∈ m.sharedNodes := by
    intro m h
    obtain ⟨a, e⟩ := List.length_eq_one_iff.1 h
    simp [sharedN, e]
  have memF : ∀ {m : Tess R}, m.sharedFaces.length = 1 → sharedF m ∈ m.sharedFaces := by
    intro m h
    obtain ⟨a, e⟩ := List.length_eq_one_iff.1 h
    simp [sharedF, e]
  have len1 : ∀ {l l' : List (List Nat)} {k : List Nat}, l.length = 1 → l'.map (·.map (old k)) = l.map (·.filter fun n => decide (n ∈ k)) → l'.length = 1 := by
    intro l l' k h e
    have := congrArg List.length e
    simpa [h] using this
  have hltN : ∀ n ∈ sharedN m1, n < kn.length := hM.sharedNodes_lt _ (memN (len1 h1 hM.sharedNodes))
  have hltN' : ∀ n ∈ sharedN q1, n < kn'.length := hM'.sharedNodes_lt _ (memN (len1 h1' hM'.sharedNodes))
  have hltF : ∀ n ∈ sharedF m1, n < kf.length := hM.sharedFaces_lt _ (memF (len1 hsf hM.sharedFaces))
  have hltF' : ∀ n ∈ sharedF q1, n < kf'.length := hM'.sharedFaces_lt _ (memF (len1 hsf' hM'.sharedFaces))
  have hlt : ∀ n ∈ sharedN m, n < numNodes 2 m := hcm.nodes_lt _ (memN h1)
  have hlt' : ∀ n ∈ sharedN q, n < numNodes 2 q := hcm'.nodes_lt _ (memN h1')
  have hll := hA.nodes
  -- where shared nodes go
  have dest : ∀ j, j < (sharedN m).length → ∃ i, i < (sharedN m).length ∧ tgt (old (sharedN m) j) = old (sharedN m) i ∧ tgt' (old (sharedN q) j) = old (sharedN q) i := by
    intro j hj
    obtain ⟨i, hi, e⟩ := hfront j hj
    exact ⟨i, hi, e, (hS j i hj hi).1 e⟩
  have keepN : ∀ i, i < (sharedN m).length → (old (sharedN m) i ∈ kn ↔ old (sharedN q) i ∈ kn') := by
    intro i hi
    have a : old (sharedN m) i ∈ kn ↔ tgt (old (sharedN m) i) = old (sharedN m) i :=
      ⟨fun h => hM.tgt_self _ h, fun h => by rw [← h]; exact hM.tgt_mem _ (hlt _ (old_mem hi))⟩
    have b : old (sharedN q) i ∈ kn' ↔ tgt' (old (sharedN q) i) = old (sharedN q) i :=
      ⟨fun h => hM'.tgt_self _ h, fun h => by rw [← h]; exact hM'.tgt_mem _ (hlt' _ (old_mem (by omega)))⟩
    rw [a, b]
    exact hS i i hi hi
  -- a face is kept on both sides or on none
  have facemap : ∀ {m m1 : Tess R} {kn kf : List Nat} {tgt : Nat → Nat}, CommOK 2 m → m.sharedFaces.length = 1 → Merged 2 m kn kf tgt m1 →
      ∀ k, k < (sharedF m).length → ∀ a b, JoinsNodes m (old (sharedF m) k) a b → (old (sharedF m) k ∈ kf ↔ tgt a ≠ tgt b) := by
    intro m m1 kn kf tgt hcm hsf hM k hk a b hj
    rw [hM.kf_iff]
    have hf := hcm.faces_lt _ (memF hsf) _ (old_mem hk)
    constructor
    · rintro ⟨_, h⟩
      rcases hj with j | j
      · exact h a b j
      · exact Ne.symm (h b a j)
    · intro h
      refine ⟨hf, fun x y hxy => ?_⟩
      rcases hj with j | j <;> rw [j] at hxy <;> simp only [List.cons.injEq, and_true] at hxy <;> rw [← hxy.1, ← hxy.2]
      · exact h
      · exact Ne.symm h
  have keepF : ∀ k, k < (sharedF m).length → (old (sharedF m) k ∈ kf ↔ old (sharedF q) k ∈ kf') := by
    intro k hk
    obtain ⟨i, j, hi, hj, j1, j2⟩ := hA.ends k hk
    rw [facemap hcm hsf hM k hk _ _ j1, facemap hcm' hsf' hM' k (by rw [← hA.faces]; exact hk) _ _ j2]
    obtain ⟨i', hi', a1, a2⟩ := dest i hi
    obtain ⟨j', hj', b1, b2⟩ := dest j hj
    rw [a1, a2, b1, b2]
    constructor
    · intro h e; exact h (by rw [old_inj_nodup hn' (by omega) (by omega) e])
    · intro h e; exact h (by rw [old_inj_nodup hn hi' hj' e])
  set π := (List.range (sharedN m).length).filter fun i => decide (old (sharedN m) i ∈ kn) with hπ
  set φ := (List.range (sharedF m).length).filter fun i => decide (old (sharedF m) i ∈ kf) with hφ
  have hπ' : π = (List.range (sharedN q).length).filter fun i => decide (old (sharedN q) i ∈ kn') := by
    rw [hπ, ← hll]
    apply List.filter_congr
    intro i hi
    simp only [List.mem_range] at hi
    simp only [decide_eq_decide]
    exact keepN i hi
  have hφ' : φ = (List.range (sharedF q).length).filter fun i => decide (old (sharedF q) i ∈ kf') := by
    rw [hφ, ← hA.faces]
    apply List.filter_congr
    intro i hi
    simp only [List.mem_range] at hi
    simp only [decide_eq_decide]
    exact keepF i hi
  obtain ⟨n1, n2, n3, n4⟩ := kept_positions eN hπ
  obtain ⟨n1', n2', n3', n4'⟩ := kept_positions eN' hπ'
  obtain ⟨f1, f2, f3, f4⟩ := kept_positions eF hφ
  obtain ⟨f1', f2', f3', f4'⟩ := kept_positions eF' hφ'
  -- a face of the new mesh
  have newface : ∀ {m m1 : Tess R} {kn kf : List Nat} {tgt : Nat → Nat}, Merged 2 m kn kf tgt m1 → ∀ g, g < kf.length → ∀ a b a' b', JoinsNodes m (old kf g) a b →
      a' < kn.length → b' < kn.length → old kn a' = tgt a → old kn b' = tgt b → JoinsNodes m1 g a' b' := by
    intro m m1 kn kf tgt hM g hg a b a' b' hj ha' hb' ea eb
    have hfl : m1.faces.length = kf.length := by simpa using congrArg List.length hM.faces
    have hgl : g < m1.faces.length := by omega
    have hface : (face m1 g).map (old kn) = (face m (old kf g)).map tgt := by
      have := congrArg (fun l : List (List Nat) => l.getD g []) hM.faces
      simp only [List.getD_eq_getElem?_getD, List.getElem?_map, List.getElem?_eq_getElem hgl, List.getElem?_eq_getElem hg, Option.map_some, Option.getD_some] at this
      rw [old_lt hg]
      simpa [face, hgl] using this
    have hmem := hM.faces_lt _ (face_mem hgl)
    have two : ∀ u v, (face m1 g).map (old kn) = [u, v] → ∃ u' v', face m1 g = [u', v'] ∧ old kn u' = u ∧ old kn v' = v ∧ u' < kn.length ∧ v' < kn.length := by
      intro u v huv
      obtain ⟨u', v', e⟩ := List.length_eq_two.1 (by simpa using congrArg List.length huv : (face m1 g).length = 2)
      rw [e] at huv hmem
      simp only [List.map_cons, List.map_nil, List.cons.injEq, and_true] at huv
      exact ⟨u', v', e, huv.1, huv.2, hmem u' (by simp), hmem v' (by simp)⟩
    rcases hj with j | j <;> rw [j] at hface <;> obtain ⟨u', v', e, e1, e2, e3, e4⟩ := two _ _ (by simpa using hface)
    · left
      rw [e, old_inj hM.kn_sorted e3 ha' (by rw [e1, ea]), old_inj hM.kn_sorted e4 hb' (by rw [e2, eb])]
    · right
      rw [e, old_inj hM.kn_sorted e3 hb' (by rw [e1, eb]), old_inj hM.kn_sorted e4 ha' (by rw [e2, ea])]
  refine ⟨by omega, ?_, by omega, ?_⟩
  · intro x hx
    rw [node_merged hc hM (hltN _ (old_mem hx)), node_merged hc' hM' (hltN' _ (old_mem (by omega))), n2 x (by omega), n2' x (by omega)]
    exact hA.point _ (n3 x (by omega)).1
  · intro x hx
    obtain ⟨k1, k2⟩ := f3 x (by omega)
    obtain ⟨i, j, hi, hj, j1, j2⟩ := hA.ends _ k1
    obtain ⟨i', hi', a1, a2⟩ := dest i hi
    obtain ⟨j', hj', b1, b2⟩ := dest j hj
    obtain ⟨u, hu, eu⟩ := n4 i' hi' (by rw [← a1]; exact hM.tgt_mem _ (hlt _ (old_mem hi)))
    obtain ⟨v, hv, ev⟩ := n4 j' hj' (by rw [← b1]; exact hM.tgt_mem _ (hlt _ (old_mem hj)))
    refine ⟨u, v, by omega, by omega, ?_, ?_⟩
    · refine newface hM _ (hltF _ (old_mem hx)) _ _ _ _ (by rw [f2 x (by omega)]; exact j1) (hltN _ (old_mem (by omega))) (hltN _ (old_mem (by omega))) ?_ ?_
      · rw [n2 u hu, eu, a1]
      · rw [n2 v hv, ev, b1]
    · refine newface hM' _ (hltF' _ (old_mem (by omega))) _ _ _ _ (by rw [f2' x (by omega)]; exact j2) (hltN' _ (old_mem (by omega))) (hltN' _ (old_mem (by omega))) ?_ ?_
      · rw [n2' u hu, eu, a2]
      · rw [n2' v hv, ev, b2]
end Verif.Editor
