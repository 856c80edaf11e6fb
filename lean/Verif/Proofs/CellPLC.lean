import Verif.Proofs.PLC
/- Proofs for the extraction of one cell as a PLC. -/
namespace Verif.Geom
open Verif Verif.Mesh Verif.Editor
variable {R : Type}

theorem rd_getD {α : Type} {l : List α} {i : Nat} (h : i < l.length) (d : α) : rd l i = .ok (l.getD i d) := by
  rw [rd_lt h]; simp [h]

theorem node_eq2 {m : Tess R} {n : Nat} (h : n < numNodes 2 m) : ∃ x y, rd m.nodes (2 * n) = .ok x ∧ rd m.nodes (2 * n + 1) = .ok y ∧ node 2 m n = [x, y] := by
  have h1 : 2 * n + 1 < m.nodes.length := by simp only [numNodes] at h; omega
  refine ⟨_, _, rd_lt (by omega), rd_lt h1, ?_⟩
  rw [node, List.drop_eq_getElem_cons (by omega), List.drop_eq_getElem_cons h1]
  rfl

theorem node_eq3 {m : Tess R} {n : Nat} (h : n < numNodes 3 m) : ∃ x y z, rd m.nodes (3 * n) = .ok x ∧ rd m.nodes (3 * n + 1) = .ok y ∧
    rd m.nodes (3 * n + 2) = .ok z ∧ node 3 m n = [x, y, z] := by
  have h1 : 3 * n + 2 < m.nodes.length := by simp only [numNodes] at h; omega
  refine ⟨_, _, _, rd_lt (by omega), rd_lt (by omega), rd_lt h1, ?_⟩
  rw [node, List.drop_eq_getElem_cons (by omega), List.drop_eq_getElem_cons (by omega), List.drop_eq_getElem_cons h1]
  rfl

theorem head_lt {m : Tess R} (hc : Consistent 2 m) (hp : ∀ F ∈ m.faces, F.length = 2) {s : Int} (hs : posID s < m.faces.length) : head m s < numNodes 2 m := by
  have hF := face_mem hs
  have h2 := hp _ hF
  refine hc.faces_lt _ hF _ ?_
  unfold head
  match h : face m (posID s), h2 with
  | [a, b], _ => split <;> simp

theorem cellPoints2_ok {dbg : Bool} {m : Tess R} (hc : Consistent 2 m) (hp : ∀ F ∈ m.faces, F.length = 2) : ∀ {C : List Int},
    (∀ s ∈ C, posID s < m.faces.length) → cellPoints2 dbg m C = .ok (C.flatMap fun s => node 2 m (head m s))
  | [], _ => rfl
  | s :: C, h => by
    have hs := h s (by simp)
    have hF := face_mem hs
    have h2 := hp _ hF
    rw [cellPoints2, Res.assert_true dbg (by exact hs)]
    simp only [Res.bind_eq, Res.bind_ok]
    rw [rd_getD hs []]
    change (Res.ok (face m (posID s)) |>.bind _) = _
    rw [Res.bind_ok, Res.assert_true dbg (by exact h2), Res.bind_ok]
    have e : (if s < 0 then rd (face m (posID s)) 0 else rd (face m (posID s)) 1) = .ok (head m s) := by
      unfold head
      split
      · rename_i hn
        rw [if_neg (by omega), rd_getD (by omega) 0]
      · rename_i hn
        rw [if_pos (by omega), rd_getD (by omega) 0]
    have hl := head_lt hc hp hs
    obtain ⟨x, y, hx, hy, hxy⟩ := node_eq2 hl
    have ih := cellPoints2_ok (dbg := dbg) hc hp (C := C) fun t ht => h t (by simp [ht])
    have k : (do
      let ip ← Res.ok (head m s)
      Res.assert dbg (ip < m.nodes.length / 2)
      let x ← rd m.nodes (2 * ip)
      let y ← rd m.nodes (2 * ip + 1)
      let r ← cellPoints2 dbg m C
      return x :: y :: r) = .ok ((s :: C).flatMap fun s => node 2 m (head m s)) := by
      simp only [Res.bind_eq, Res.bind_ok]
      rw [Res.assert_true dbg (by exact hl), Res.bind_ok, hx, Res.bind_ok, hy, Res.bind_ok, ih, Res.bind_ok]
      simp [hxy]
    rw [← k, ← e]
    split <;> rfl

/-- In a path each face starts where the one before it ends. -/
theorem path_step {m : Tess R} : ∀ {C : List Int} {a b : Nat}, Path m a C b → ∀ (i : Nat) (h : i + 1 < C.length), tail m C[i + 1] = head m C[i]
  | s :: t :: C, a, b, h, 0, _ => h.2.1
  | s :: C, a, b, h, i + 1, hi => path_step h.2 i (by simpa using hi)

theorem path_ends {m : Tess R} : ∀ {C : List Int} {a b : Nat}, Path m a C b → ∀ h : 0 < C.length, tail m C[0] = a ∧ head m C[C.length - 1] = b
  | [s], a, b, h, _ => ⟨h.1, h.2⟩
  | s :: t :: C, a, b, h, _ => ⟨h.1, by simpa using (path_ends h.2 (by simp)).2⟩

/-- In a closed loop each face starts where the one before it ends, the first where the last ends. -/
theorem loop_step {m : Tess R} {C : List Int} (h : ClosedLoop m C) (i : Nat) (hi : i < C.length) :
    tail m (C[(i + 1) % C.length]'(Nat.mod_lt _ (by omega))) = head m C[i] := by
  obtain ⟨a, h⟩ := h
  by_cases hl : i + 1 < C.length
  · simp only [Nat.mod_eq_of_lt hl]
    exact path_step h i hl
  · have e : i = C.length - 1 := by omega
    have e' : (i + 1) % C.length = 0 := by rw [show i + 1 = C.length by omega, Nat.mod_self]
    obtain ⟨h1, h2⟩ := path_ends h (by omega)
    simp only [e']
    rw [h1, ← h2]
    simp only [e]

theorem orientedCoords_eq {m : Tess R} (hp : ∀ F ∈ m.faces, F.length = 2) {s : Int} (hs : posID s < m.faces.length) :
    orientedCoords 2 m s = [node 2 m (tail m s), node 2 m (head m s)] := by
  have h2 := hp _ (face_mem hs)
  unfold orientedCoords tail head
  match h : face m (posID s), h2 with
  | [a, b], _ => split <;> simp

theorem cellToPLC2_spec (dbg : Bool) (m : Tess R) (hc : Consistent 2 m) (hp : ∀ F ∈ m.faces, F.length = 2) (c : Nat) (hlt : c < m.cells.length)
    (h3 : 3 ≤ (cell m c).length) (hloop : ClosedLoop m (cell m c)) : ∃ r, cellToPLC2 dbg m c = .ok r ∧
      r.facets.map (facetCoords 2 r.points) = ((cell m c).map (orientedCoords 2 m)).rotate 1 ∧
      r.points.length = 2 * (cell m c).length ∧ OneLoop (cell m c).length r.facets ∧ r.holes = [] := by
  have hin : ∀ s ∈ cell m c, posID s < m.faces.length := hc.cells_lt _ (cell_mem hlt)
  have hg : ∀ s ∈ cell m c, (node 2 m (head m s)).length = 2 := fun s hs => node_length (head_lt hc hp (hin s hs))
  have hlen : ((cell m c).flatMap fun s => node 2 m (head m s)).length = 2 * (cell m c).length := length_flatMap_const hg
  have hne : empty m = false := by
    have h0 : m.cells ≠ [] := by intro e; simp [e] at hlt
    have h1 : m.nodes ≠ [] := by
      intro e
      have := head_lt hc hp (hin _ (List.getElem_mem (show 0 < (cell m c).length by omega)))
      simp [numNodes, e] at this
    simp [empty, h0, h1]
  refine ⟨{ points := (cell m c).flatMap fun s => node 2 m (head m s), facets := (List.range (cell m c).length).map fun i : Nat => [(i : Int), (((i + 1) % (cell m c).length : Nat) : Int)] },
    ?_, ?_, hlen, chainFacets_oneLoop (cell m c).length, rfl⟩
  · rw [cellToPLC2, Res.assert_true dbg (by exact hne)]
    simp only [Res.bind_eq, Res.bind_ok]
    rw [Res.assert_true dbg (by exact hlt), Res.bind_ok, rd_getD hlt []]
    change (Res.ok (cell m c) |>.bind _) = _
    rw [Res.bind_ok, Res.assert_true dbg (by exact h3), Res.bind_ok, cellPoints2_ok hc hp hin, Res.bind_ok,
      Res.assert_true dbg (by rw [hlen]; exact Nat.mul_div_cancel_left _ (by omega)), Res.bind_ok]
    rfl
  · apply List.ext_getElem
    · simp
    · intro i h1 h2
      have hi : i < (cell m c).length := by simpa using h1
      have hm : (i + 1) % (cell m c).length < (cell m c).length := Nat.mod_lt _ (by omega)
      simp only [List.getElem_map, List.getElem_range, List.getElem_rotate, List.length_map]
      rw [orientedCoords_eq hp (hin _ (List.getElem_mem hm)), loop_step hloop i hi]
      simp only [facetCoords, List.map_cons, List.map_nil]
      rw [pt_flatMap hg i hi, pt_flatMap hg _ hm]

/-! ### 3D -/

/-- What holds of the extraction state. -/
structure ExtractOK (m : Tess R) (st : Extract R) : Prop where
  nodup : st.keys.Nodup
  lt : ∀ k ∈ st.keys, k < numNodes 3 m
  points : st.points = st.keys.flatMap (node 3 m)

theorem ExtractOK.len {m : Tess R} {st : Extract R} (h : ExtractOK m st) : st.points.length = 3 * st.keys.length := by
  rw [h.points]; exact length_flatMap_const fun a ha => node_length (h.lt a ha)

theorem addNode_ok {dbg : Bool} {m : Tess R} {st : Extract R} {ip : Nat} (h : ExtractOK m st) (hip : ip < numNodes 3 m) :
    ∃ (k : Nat) (st' : Extract R), addNode dbg m st ip = .ok ((k : Int), st') ∧ ExtractOK m st' ∧ st.keys <+: st'.keys ∧ st'.keys[k]? = some ip ∧
      (∀ j, j < st'.keys.length → j < st.keys.length ∨ j = k) := by
  unfold addNode
  rw [Res.assert_true dbg (by exact hip)]
  simp only [Res.bind_eq, Res.bind_ok]
  by_cases hm : ip ∈ st.keys
  · rw [if_pos hm]
    refine ⟨st.keys.idxOf ip, st, rfl, h, List.prefix_refl _, ?_, fun j hj => Or.inl hj⟩
    rw [List.getElem?_eq_getElem (List.idxOf_lt_length_of_mem hm), List.getElem_idxOf]
  · rw [if_neg hm]
    obtain ⟨x, y, z, hx, hy, hz, he⟩ := node_eq3 hip
    rw [hx, Res.bind_ok, hy, Res.bind_ok, hz, Res.bind_ok]
    refine ⟨st.points.length / 3, _, rfl, ⟨?_, ?_, ?_⟩, List.prefix_append _ _, ?_, ?_⟩
    · rw [List.nodup_append]
      exact ⟨h.nodup, by simp, by simpa using fun a ha (e : a = ip) => hm (e ▸ ha)⟩
    · intro k hk
      rcases List.mem_append.1 hk with hk | hk
      · exact h.lt k hk
      · rw [List.mem_singleton.1 hk]; exact hip
    · simp [h.points, he]
    · rw [h.len, Nat.mul_div_cancel_left _ (by omega)]; simp
    · intro j hj
      rw [h.len, Nat.mul_div_cancel_left _ (by omega)]
      simp at hj; omega

/-- Reading new ids back as mesh nodes. -/
def back (keys : List Nat) (i : Int) : Option Nat := if 0 ≤ i then keys[i.toNat]? else none

theorem back_prefix {a b : List Nat} (h : a <+: b) {i : Int} {n : Nat} (hi : back a i = some n) : back b i = some n := by
  obtain ⟨t, rfl⟩ := h
  unfold back at hi ⊢
  split at hi
  · rename_i h0
    rw [if_pos h0, List.getElem?_append_left, hi]
    by_contra hge
    rw [List.getElem?_eq_none (by omega)] at hi
    cases hi
  · cases hi

theorem map_back_prefix {a b : List Nat} (h : a <+: b) : ∀ {f : List Int} {F : List Nat}, f.map (back a) = F.map some → f.map (back b) = F.map some
  | [], [], _ => rfl
  | i :: f, n :: F, e => by
    simp only [List.map_cons, List.cons.injEq] at e ⊢
    exact ⟨back_prefix h e.1, map_back_prefix h e.2⟩
  | [], n :: F, e => by simp at e
  | i :: f, [], e => by simp at e

theorem addFacet_ok {dbg : Bool} {m : Tess R} : ∀ {ns : List Nat} {st : Extract R}, ExtractOK m st → (∀ n ∈ ns, n < numNodes 3 m) →
    ∃ (f : List Int) (st' : Extract R), addFacet dbg m ns st = .ok (f, st') ∧ ExtractOK m st' ∧ st.keys <+: st'.keys ∧ f.map (back st'.keys) = ns.map some ∧
      (∀ j : Nat, j < st'.keys.length → j < st.keys.length ∨ (j : Int) ∈ f)
  | [], st, h, _ => ⟨[], st, rfl, h, List.prefix_refl _, rfl, fun j hj => Or.inl hj⟩
  | ip :: ns, st, h, hl => by
    obtain ⟨k, st1, e1, h1, p1, g1, u1⟩ := addNode_ok (dbg := dbg) h (hl ip (by simp))
    obtain ⟨f, st2, e2, h2, p2, g2, u2⟩ := addFacet_ok (dbg := dbg) (ns := ns) h1 fun n hn => hl n (by simp [hn])
    refine ⟨(k : Int) :: f, st2, ?_, h2, p1.trans p2, ?_, ?_⟩
    · rw [addFacet, e1]
      simp only [Res.bind_eq, Res.bind_ok]
      rw [e2]; rfl
    · rw [List.map_cons, g2, List.map_cons, back_prefix p2 (by rw [back, if_pos (by omega), Int.toNat_natCast]; exact g1)]
    · intro j hj
      rcases u2 j hj with hj | hj
      · rcases u1 j hj with hj | rfl
        · exact Or.inl hj
        · exact Or.inr (by simp)
      · exact Or.inr (by simp [hj])

theorem addFacets_ok {dbg : Bool} {m : Tess R} (hc : Consistent 3 m) : ∀ {C : List Int} {st : Extract R}, ExtractOK m st → (∀ s ∈ C, posID s < m.faces.length) →
    ∃ (fs : List (List Int)) (st' : Extract R), addFacets dbg m C st = .ok (fs, st') ∧ ExtractOK m st' ∧ st.keys <+: st'.keys ∧
      fs.map (·.map (back st'.keys)) = C.map (fun s => (orientedNodes m s).map some) ∧
      (∀ j : Nat, j < st'.keys.length → j < st.keys.length ∨ ∃ f ∈ fs, (j : Int) ∈ f)
  | [], st, h, _ => ⟨[], st, rfl, h, List.prefix_refl _, rfl, fun j hj => Or.inl hj⟩
  | s :: C, st, h, hl => by
    have hs := hl s (by simp)
    have hn : ∀ n ∈ orientedNodes m s, n < numNodes 3 m := by
      intro n hn
      refine hc.faces_lt _ (face_mem hs) n ?_
      unfold orientedNodes at hn
      split at hn
      · exact hn
      · exact List.mem_reverse.1 hn
    have eo : (if s < 0 then (face m (posID s)).reverse else face m (posID s)) = orientedNodes m s := by
      unfold orientedNodes
      by_cases h0 : 0 ≤ s
      · rw [if_pos h0, if_neg (by omega)]
      · rw [if_neg h0, if_pos (by omega)]
    obtain ⟨f, st1, e1, h1, p1, g1, u1⟩ := addFacet_ok (dbg := dbg) h hn
    obtain ⟨fs, st2, e2, h2, p2, g2, u2⟩ := addFacets_ok (dbg := dbg) hc (C := C) h1 fun t ht => hl t (by simp [ht])
    have hlen : f.length = (face m (posID s)).length := by
      have := congrArg List.length g1
      simp only [List.length_map] at this
      rw [this]; unfold orientedNodes; split <;> simp
    refine ⟨f :: fs, st2, ?_, h2, p1.trans p2, ?_, ?_⟩
    · rw [addFacets, rd_getD hs []]
      change (Res.ok (face m (posID s)) |>.bind _) = _
      rw [Res.bind_ok, eo, e1]
      simp only [Res.bind_eq, Res.bind_ok]
      rw [Res.assert_true dbg (by exact hlen), Res.bind_ok, e2]; rfl
    · rw [List.map_cons, g2, List.map_cons, map_back_prefix p2 g1]
    · intro j hj
      rcases u2 j hj with hj | ⟨g, hg, hj⟩
      · rcases u1 j hj with hj | hj
        · exact Or.inl hj
        · exact Or.inr ⟨f, by simp, hj⟩
      · exact Or.inr ⟨g, by simp [hg], hj⟩

theorem back_some {keys : List Nat} {i : Int} {n : Nat} (h : back keys i = some n) : ∃ k : Nat, i = k ∧ ∃ hk : k < keys.length, keys[k] = n := by
  unfold back at h
  split at h
  · rename_i h0
    obtain ⟨hk, e⟩ := List.getElem?_eq_some_iff.1 h
    exact ⟨i.toNat, by omega, hk, e⟩
  · cases h

theorem cellToPLC3_spec (dbg : Bool) (m : Tess R) (hc : Consistent 3 m) (c : Nat) (hlt : c < m.cells.length) : ∃ r, cellToPLC3 dbg m c = .ok r ∧
      r.facets.map (facetCoords 3 r.points) = (cell m c).map (orientedCoords 3 m) ∧
      3 ∣ r.points.length ∧ InRange (r.points.length / 3) r.facets ∧ AllUsed (r.points.length / 3) r.facets ∧ r.holes = [] ∧
      ∃ keys : List Nat, keys.Nodup ∧ keys.length = r.points.length / 3 ∧
        r.facets.map (·.map fun i => keys.getD i.toNat 0) = (cell m c).map (orientedNodes m) := by
  have hin : ∀ s ∈ cell m c, posID s < m.faces.length := hc.cells_lt _ (cell_mem hlt)
  obtain ⟨fs, st, e, h, -, g, u⟩ := addFacets_ok (dbg := dbg) hc (C := cell m c) (st := {}) ⟨by simp, by simp, rfl⟩ hin
  have hlen : fs.length = (cell m c).length := by simpa using congrArg List.length g
  have hdiv : st.points.length / 3 = st.keys.length := by rw [h.len, Nat.mul_div_cancel_left _ (by omega)]
  have hback : ∀ f ∈ fs, ∀ i ∈ f, ∃ n, back st.keys i = some n := by
    intro f hf i hi
    have h1 : f.map (back st.keys) ∈ fs.map (·.map (back st.keys)) := List.mem_map_of_mem hf
    rw [g] at h1
    obtain ⟨s, -, hs⟩ := List.mem_map.1 h1
    have h2 : back st.keys i ∈ f.map (back st.keys) := List.mem_map_of_mem hi
    rw [← hs] at h2
    obtain ⟨n, -, hn⟩ := List.mem_map.1 h2
    exact ⟨n, hn.symm⟩
  -- read the ids of a facet back
  have hread : ∀ {β : Type} (φ : Int → β) (ψ : Nat → β), (∀ k (hk : k < st.keys.length), φ (k : Int) = ψ st.keys[k]) →
      fs.map (·.map φ) = (cell m c).map fun s => (orientedNodes m s).map ψ := by
    intro β φ ψ hφ
    have h1 := congrArg (fun L : List (List (Option Nat)) => L.map (·.map (·.map ψ))) g
    simp only [List.map_map] at h1
    have h2 : fs.map ((fun l => l.map some) ∘ fun f => f.map φ) = fs.map ((fun x => x.map fun x => x.map ψ) ∘ fun x => x.map (back st.keys)) := by
      refine List.map_congr_left fun f hf => ?_
      simp only [Function.comp, List.map_map]
      refine List.map_congr_left fun i hi => ?_
      obtain ⟨n, hn⟩ := hback f hf i hi
      obtain ⟨k, rfl, hk, e⟩ := back_some hn
      simp only [Function.comp, hn, Option.map_some, hφ k hk, e]
    rw [h1, ← List.map_map] at h2
    have h3 : ((cell m c).map fun s => (orientedNodes m s).map ψ).map (fun l => l.map some) = (fs.map fun f => f.map φ).map (fun l => l.map some) := by
      rw [h2, List.map_map]
      refine List.map_congr_left fun s _ => ?_
      simp [Function.comp]
    exact (List.map_injective_iff.2 (List.map_injective_iff.2 (Option.some_injective β)) h3).symm
  refine ⟨{ facets := fs, points := st.points }, ?_, ?_, ?_, ?_, ?_, rfl, st.keys, h.nodup, hdiv.symm, ?_⟩
  · rw [cellToPLC3, Res.assert_true dbg (by exact hlt)]
    simp only [Res.bind_eq, Res.bind_ok]
    rw [rd_getD hlt []]
    change (Res.ok (cell m c) |>.bind _) = _
    rw [Res.bind_ok, e, Res.bind_ok, Res.assert_true dbg (by exact hlen), Res.bind_ok]
    rfl
  · have := hread (pt 3 st.points) (node 3 m) fun k hk => by
      rw [h.points]; exact pt_flatMap (fun a ha => node_length (h.lt a ha)) k hk
    have e2 : (fun s => (orientedNodes m s).map (node 3 m)) = orientedCoords 3 m := by
      funext s; unfold orientedNodes orientedCoords; split <;> simp
    rw [e2] at this
    exact this
  · exact ⟨_, h.len⟩
  · intro f hf i hi
    obtain ⟨n, hn⟩ := hback f hf i hi
    obtain ⟨k, rfl, hk, -⟩ := back_some hn
    dsimp only
    rw [hdiv]; omega
  · intro k hk
    dsimp only at hk
    rw [hdiv] at hk
    rcases u k hk with h0 | h0
    · simp at h0
    · exact h0
  · have := hread (fun i => st.keys.getD i.toNat 0) id fun k hk => by simp [hk]
    simpa using this

end Verif.Geom
