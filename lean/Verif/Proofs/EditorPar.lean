import Verif.Proofs.EditorMerge
import Verif.Proofs.Exchange
import Verif.Model.EditorPar
import Verif.Spec.EditorPar
/- Edge cleaning on several processes: the edges shared with a neighbour and their masks. -/
namespace Verif.Editor
open Verif Verif.Mesh Verif.Internal Verif.Mpi

theorem posMap_spec (dbg : Bool) {N : Nat} : ∀ (l pre : List Nat) (pm : KMap Nat), (pre ++ l).Nodup → (∀ n ∈ l, n < N) → pm.length = pre.length →
    (∀ n i, pm.lookup n = some i ↔ pre[i]? = some n) →
    ∃ pm', posMap dbg N l pm = .ok pm' ∧ pm'.length = (pre ++ l).length ∧ ∀ n i, pm'.lookup n = some i ↔ (pre ++ l)[i]? = some n
  | [], pre, pm, _, _, hl, h => ⟨pm, rfl, by simp [hl], by simpa using h⟩
  | n :: l, pre, pm, hn, hlt, hl, h => by
    have hnp : n ∉ pre := fun hm => (List.nodup_append.1 hn).2.2 n hm n (by simp) rfl
    have hnone : pm.lookup n = none := by
      cases e : pm.lookup n with
      | none => rfl
      | some i => exact absurd (List.mem_of_getElem? ((h n i).1 e)) hnp
    have hfil : (pm.filter fun x => x.1 != n) = pm := by
      rw [List.filter_eq_self]
      intro x hx
      have := List.lookup_eq_none_iff.1 hnone x hx
      simp only [bne_iff_ne, ne_eq]
      intro e
      simp [e] at this
    obtain ⟨pm', e1, e2, e3⟩ := posMap_spec dbg l (pre ++ [n]) ((n, pm.length) :: pm) (by simpa using hn) (fun x hx => hlt x (by simp [hx])) (by simp [hl]) (by
      intro x i
      rw [List.lookup_cons]
      by_cases hx : x = n
      · subst hx
        simp only [beq_self_eq_true, Option.some.injEq, hl]
        constructor
        · rintro rfl; simp
        · intro e
          by_contra hcon
          rcases Nat.lt_or_ge i pre.length with hi | hi
          · rw [List.getElem?_append_left hi] at e
            exact hnp (List.mem_of_getElem? e)
          · rw [List.getElem?_append_right hi] at e
            have := (List.getElem?_eq_some_iff.1 e).1
            simp at this
            omega
      · rw [show (x == n) = false by simpa using hx]
        simp only []
        rw [h]
        constructor
        · intro e
          rw [List.getElem?_append_left (List.getElem?_eq_some_iff.1 e).1]; exact e
        · intro e
          rcases Nat.lt_or_ge i pre.length with hi | hi
          · rwa [List.getElem?_append_left hi] at e
          · rw [List.getElem?_append_right hi] at e
            have := List.mem_of_getElem? e
            simp at this
            exact absurd this hx)
    refine ⟨pm', ?_, by simpa using e2, by simpa using e3⟩
    rw [posMap, Res.bind_eq, Res.assert_true dbg (by simp [hnone]), Res.bind_ok, if_pos (hlt n (by simp)), hfil]
    exact e1

instance : Std.Total pairLe := ⟨fun a b => by unfold pairLe; omega⟩
instance : IsTrans Edge pairLe := ⟨fun a b c => by unfold pairLe; omega⟩
instance : Std.Antisymm pairLe := ⟨fun a b h1 h2 => by
  unfold pairLe at h1 h2
  exact Prod.ext (by omega) (by omega)⟩

/-- The number of the edge between two nodes. -/
def eno (keys : KMap Edge) (a b : Nat) : Nat := (findKey (edgeKey a b) keys).getD 0

/-- The edges the scan numbers are the faces of the mesh. -/
structure Keys {R : Type} (m : Tess R) (keys : KMap Edge) : Prop where
  nodup : (keys.map Prod.fst).Nodup
  ids : keys.map Prod.snd = List.range keys.length
  mem : ∀ a b, edgeKey a b ∈ keys.map Prod.fst ↔ ∃ f, f < m.faces.length ∧ JoinsNodes m f a b
  ord : ∀ e ∈ keys.map Prod.fst, e.1 < e.2 ∧ e.2 < numNodes 2 m

section
variable {R : Type} {m : Tess R} {keys : KMap Edge}

theorem edgeKey_of_lt {a b : Nat} (h : a < b) : edgeKey a b = (a, b) := by simp [edgeKey, h]

theorem edgeKey_comm (a b : Nat) : edgeKey a b = edgeKey b a := by
  unfold edgeKey
  split <;> split <;> simp <;> omega

theorem Keys.numbers (h : Keys m keys) : Numbers keys (keys.map Prod.fst) := ⟨h.nodup, h.ids, fun _ => Iff.rfl⟩

theorem Keys.eno (h : Keys m keys) {f a b : Nat} (hf : f < m.faces.length) (hj : JoinsNodes m f a b) :
    findKey (edgeKey a b) keys = some (eno keys a b) ∧ eno keys a b < keys.length ∧ edgeAt (keys.map Prod.fst) (eno keys a b) = edgeKey a b := by
  obtain ⟨⟨e, i⟩, hm, he⟩ := List.mem_map.1 ((h.mem a b).2 ⟨f, hf, hj⟩)
  simp only at he
  subst he
  have h1 := findKey_of_mem h.numbers hm
  have h2 : Editor.eno keys a b = i := by unfold Editor.eno; rw [h1]; rfl
  rw [h2]
  exact ⟨h1, keys_get h.numbers hm⟩

/-- A shared edge, as positions in the list of shared nodes. -/
def IsShared (m : Tess R) (sn : List Nat) (x : Edge) : Prop :=
  x.1 < x.2 ∧ x.2 < sn.length ∧ ∃ f, f < m.faces.length ∧ JoinsNodes m f (old sn x.1) (old sn x.2)

/-- What the map of positions holds. -/
def Positions (sn : List Nat) (pm : KMap Nat) : Prop := ∀ n i, pm.lookup n = some i ↔ sn[i]? = some n

theorem joins_symm {f a b : Nat} (h : JoinsNodes m f a b) : JoinsNodes m f b a := h.symm

theorem old_getElem? {l : List Nat} {i : Nat} (h : i < l.length) : l[i]? = some (old l i) := by simp [old, h]

theorem old_inj_nodup {l : List Nat} (hn : l.Nodup) {i j : Nat} (hi : i < l.length) (hj : j < l.length) (h : old l i = old l j) : i = j := by
  rw [old_lt hi, old_lt hj] at h
  exact (List.Nodup.getElem_inj_iff hn).1 h

theorem sharedEdgesOf_spec (dbg : Bool) (hk : Keys m keys) {sn : List Nat} (hn : sn.Nodup) {pm : KMap Nat} (hp : Positions sn pm) :
    ∃ es, sharedEdgesOf dbg (numNodes 2 m) pm keys = .ok es ∧ es.Nodup ∧ es.Pairwise pairLe ∧ ∀ x, x ∈ es ↔ IsShared m sn x := by
  have opt : ∀ e ∈ keys.map Prod.fst, sharedEdge dbg (numNodes 2 m) pm e =
      .ok (match pm.lookup e.1, pm.lookup e.2 with | some i, some j => some (edgeKey i j) | _, _ => none) := by
    intro e he
    obtain ⟨h1, h2⟩ := hk.ord e he
    unfold sharedEdge
    have h3 : e.1 < numNodes 2 m ∧ e.2 < numNodes 2 m := ⟨by omega, h2⟩
    simp only [Res.bind_eq, Res.pure_eq]
    rw [Res.assert_true dbg h1, Res.bind_ok, Res.assert_true dbg h3, Res.bind_ok]
    cases e1 : pm.lookup e.1 with
    | none => rfl
    | some i =>
      cases e2 : pm.lookup e.2 with
      | none => rfl
      | some j =>
        simp only []
        rw [Res.assert_true dbg (by
          rintro rfl
          have a1 := (hp _ _).1 e1
          have a2 := (hp _ _).1 e2
          rw [a1] at a2
          simp at a2; omega), Res.bind_ok]
  set g : Edge → Option Edge := fun e => match pm.lookup e.1, pm.lookup e.2 with | some i, some j => some (edgeKey i j) | _, _ => none with hg
  have hgs : ∀ e x, g e = some x ↔ ∃ i j, sn[i]? = some e.1 ∧ sn[j]? = some e.2 ∧ edgeKey i j = x := by
    intro e x
    rw [hg]
    simp only []
    cases e1 : pm.lookup e.1 with
    | none =>
      simp only [reduceCtorEq, false_iff, not_exists, not_and]
      intro i j hi
      rw [← hp] at hi; simp [hi] at e1
    | some i =>
      have i1 := (hp _ _).1 e1
      cases e2 : pm.lookup e.2 with
      | none =>
        simp only [reduceCtorEq, false_iff, not_exists, not_and]
        intro i j hi hj
        rw [← hp] at hj; simp [hj] at e2
      | some j =>
        have j1 := (hp _ _).1 e2
        simp only [Option.some.injEq]
        constructor
        · intro h; exact ⟨i, j, i1, j1, h⟩
        · rintro ⟨i', j', h1, h2, h3⟩
          rw [← hp, e1] at h1
          rw [← hp, e2] at h2
          simp only [Option.some.injEq] at h1 h2
          rw [h1, h2]; exact h3
  have hE : ∀ x, x ∈ (((keys.map Prod.fst).map g).filterMap id) ↔ IsShared m sn x := by
    intro x
    rw [List.filterMap_map, List.mem_filterMap]
    simp only [Function.comp_apply, id_eq]
    constructor
    · rintro ⟨e, he, hx⟩
      obtain ⟨i, j, hi, hj, rfl⟩ := (hgs e x).1 hx
      obtain ⟨il, ie⟩ := List.getElem?_eq_some_iff.1 hi
      obtain ⟨jl, je⟩ := List.getElem?_eq_some_iff.1 hj
      obtain ⟨o1, o2⟩ := hk.ord e he
      have hek : edgeKey e.1 e.2 = e := edgeKey_of_lt o1
      obtain ⟨f, hf, hj⟩ := (hk.mem e.1 e.2).1 (by rw [hek]; exact he)
      have hij : i ≠ j := by rintro rfl; rw [ie] at je; omega
      have oi : old sn i = e.1 := by rw [old_lt il]; exact ie
      have oj : old sn j = e.2 := by rw [old_lt jl]; exact je
      rcases Nat.lt_or_ge i j with h | h
      · rw [edgeKey_of_lt h]; exact ⟨h, jl, f, hf, by rw [oi, oj]; exact hj⟩
      · rw [edgeKey_comm, edgeKey_of_lt (by omega)]; exact ⟨by simp; omega, il, f, hf, by rw [oi, oj]; exact joins_symm hj⟩
    · rintro ⟨h1, h2, f, hf, hj⟩
      have hne : old sn x.1 ≠ old sn x.2 := fun e => by have := old_inj_nodup hn (by omega) h2 e; omega
      refine ⟨edgeKey (old sn x.1) (old sn x.2), (hk.mem _ _).2 ⟨f, hf, hj⟩, (hgs _ _).2 ?_⟩
      have s1 := old_getElem? (l := sn) (i := x.1) (by omega)
      have s2 := old_getElem? h2
      rcases Nat.lt_or_ge (old sn x.1) (old sn x.2) with h | h
      · rw [edgeKey_of_lt h]; exact ⟨x.1, x.2, s1, s2, edgeKey_of_lt h1⟩
      · rw [edgeKey_comm, edgeKey_of_lt (by omega)]; exact ⟨x.2, x.1, s2, s1, by rw [edgeKey_comm]; exact edgeKey_of_lt h1⟩
  have hnd : (((keys.map Prod.fst).map g).filterMap id).Nodup := by
    rw [List.filterMap_map, List.Nodup, List.pairwise_filterMap]
    refine List.Pairwise.imp_of_mem ?_ hk.nodup
    intro e e' he he' hne b hb b' hb' hbb
    subst hbb
    obtain ⟨i, j, hi, hj, hx⟩ := (hgs e b).1 hb
    obtain ⟨i', j', hi', hj', hx'⟩ := (hgs e' b).1 hb'
    obtain ⟨o1, _⟩ := hk.ord e he
    obtain ⟨o1', _⟩ := hk.ord e' he'
    rw [← hx'] at hx
    have : (i = i' ∧ j = j') ∨ (i = j' ∧ j = i') := by
      rcases edgeKey_cases i j with a | a <;> rcases edgeKey_cases i' j' with b | b <;> rw [a, b] at hx <;> simp only [Prod.mk.injEq] at hx <;> omega
    rcases this with ⟨rfl, rfl⟩ | ⟨rfl, rfl⟩
    · rw [hi] at hi'; rw [hj] at hj'
      simp only [Option.some.injEq] at hi' hj'
      exact hne (Prod.ext hi' hj')
    · rw [hi] at hj'; rw [hj] at hi'
      simp only [Option.some.injEq] at hi' hj'
      omega
  refine ⟨(((keys.map Prod.fst).map g).filterMap id).insertionSort pairLe, ?_, ?_, List.pairwise_insertionSort _ _, ?_⟩
  · unfold sharedEdgesOf
    rw [Exch.mapM_pure _ opt]; rfl
  · exact (List.perm_insertionSort _ _).nodup_iff.2 hnd
  · intro x; rw [List.mem_insertionSort]; exact hE x

theorem localEdge_spec (dbg : Bool) (hk : Keys m keys) {sn : List Nat} (hn : sn.Nodup) (hlt : ∀ n ∈ sn, n < numNodes 2 m) {x : Edge} (hx : IsShared m sn x) :
    localEdge dbg (numNodes 2 m) sn keys x = .ok (eno keys (old sn x.1) (old sn x.2)) := by
  obtain ⟨h1, h2, f, hf, hj⟩ := hx
  have h0 : x.1 < sn.length := by omega
  have hne : old sn x.1 ≠ old sn x.2 := fun e => by have := old_inj_nodup hn (by omega) h2 e; omega
  unfold localEdge
  simp only [Res.bind_eq, Res.pure_eq]
  rw [Res.assert_true dbg ⟨h0, h2⟩, Res.bind_ok, rd_lt h0, Res.bind_ok, rd_lt h2, Res.bind_ok, ← old_lt h0, ← old_lt h2,
    Res.assert_true dbg ⟨hlt _ (old_mem h0), hlt _ (old_mem h2)⟩, Res.bind_ok, Res.assert_true dbg hne, Res.bind_ok, (hk.eno hf hj).1]

theorem share_spec (dbg : Bool) (hk : Keys m keys) {sn emask : List Nat} (hl : emask.length = keys.length) (hn : sn.Nodup) (hlt : ∀ n ∈ sn, n < numNodes 2 m) :
    ∃ pm es, share dbg (numNodes 2 m) keys emask sn =
        .ok ⟨pm, es, es.map fun x => BitVec.ofNat 32 (old emask (eno keys (old sn x.1) (old sn x.2)))⟩ ∧
      Positions sn pm ∧ es.Nodup ∧ es.Pairwise pairLe ∧ ∀ x, x ∈ es ↔ IsShared m sn x := by
  obtain ⟨pm, e1, e2, e3⟩ := posMap_spec dbg sn [] [] (by simpa using hn) hlt rfl (by simp)
  simp only [List.nil_append] at e2 e3
  obtain ⟨es, e4, e5, e6, e7⟩ := sharedEdgesOf_spec dbg hk hn e3
  refine ⟨pm, es, ?_, e3, e5, e6, e7⟩
  unfold share
  simp only [Res.bind_eq, Res.pure_eq]
  rw [e1, Res.bind_ok, Res.assert_true dbg e2, Res.bind_ok, e4, Res.bind_ok,
    Exch.mapM_pure (f := fun x => BitVec.ofNat 32 (old emask (eno keys (old sn x.1) (old sn x.2)))) es, Res.bind_ok]
  intro x hx
  have hx' := (e7 x).1 hx
  rw [localEdge_spec dbg hk hn hlt hx', Res.bind_ok]
  obtain ⟨_, _, f, hf, hj⟩ := hx'
  have hl' : eno keys (old sn x.1) (old sn x.2) < emask.length := by rw [hl]; exact (hk.eno hf hj).2.1
  rw [rd_lt hl', Res.bind_ok, ← old_lt hl']
end

/-- Two sides that agree on the edges between shared nodes list the same shared edges. -/
theorem shared_same {es es' : List Edge} (h1 : es.Nodup) (h2 : es.Pairwise pairLe) (h1' : es'.Nodup) (h2' : es'.Pairwise pairLe) (h : ∀ x, x ∈ es ↔ x ∈ es') :
    es = es' := ((List.perm_ext_iff_of_nodup h1 h1').2 h).eq_of_pairwise' h2 h2'

section
variable {R : Type} {m : Tess R} {keys : KMap Edge}

theorem mergeMask_spec (dbg : Bool) (hk : Keys m keys) {sn : List Nat} (hn : sn.Nodup) (hlt : ∀ n ∈ sn, n < numNodes 2 m) {recv : List (BitVec 32)} :
    ∀ (es : List Edge) (c : Nat) (em : List Nat), (∀ x ∈ es, IsShared m sn x) → em.length = keys.length → c + es.length = recv.length →
    ∃ em', mergeMask dbg (numNodes 2 m) sn keys recv es c em = .ok em' ∧ em'.length = em.length ∧
      (∀ i, old em' i = 0 ↔ old em i = 0 ∧ ∀ j x y, es[j]? = some x → recv[c + j]? = some y → eno keys (old sn x.1) (old sn x.2) = i → y.toNat = 0) ∧
      ((∀ i, old em i ≤ 1) → (∀ y ∈ recv, y.toNat ≤ 1) → ∀ i, old em' i ≤ 1)
  | [], c, em, _, _, _ => ⟨em, rfl, rfl, by simp, fun h _ => h⟩
  | x :: es, c, em, hes, hl, hc => by
    have hx := hes x (by simp)
    have hloc := localEdge_spec dbg hk hn hlt hx
    obtain ⟨_, _, f, hf, hj⟩ := hx
    set i0 := eno keys (old sn x.1) (old sn x.2) with hi0
    have hi : i0 < em.length := by rw [hl]; exact (hk.eno hf hj).2.1
    have hcl : c < recv.length := by simp at hc; omega
    obtain ⟨em', e1, e2, e3, e4⟩ := mergeMask_spec dbg hk hn hlt (recv := recv) es (c + 1) (em.set i0 (max (em[i0]'hi) (recv[c]'hcl).toNat)) (fun x hx => hes x (by simp [hx])) (by simp [hl]) (by
      simp at hc; omega)
    refine ⟨em', ?_, by simpa using e2, ?_, ?_⟩
    · rw [mergeMask, Res.bind_eq, hloc, Res.bind_ok, Res.bind_eq, rd_lt hi, Res.bind_ok, Res.bind_eq, rd_lt hcl, Res.bind_ok, Res.bind_eq, wr_lt hi, Res.bind_ok]
      exact e1
    · intro i
      rw [e3, old_set hi]
      constructor
      · rintro ⟨h1, h2⟩
        refine ⟨?_, ?_⟩
        · split at h1
          · rename_i h; rw [h, old_lt hi]; omega
          · exact h1
        · intro j x' y hj' hy he
          cases j with
          | zero =>
            simp only [List.getElem?_cons_zero, Option.some.injEq] at hj'
            subst hj'
            rw [if_pos he.symm] at h1
            simp only [Nat.add_zero, List.getElem?_eq_getElem hcl, Option.some.injEq] at hy
            subst hy; omega
          | succ j => exact h2 j x' y (by simpa using hj') (by rw [show c + 1 + j = c + (j + 1) by omega]; exact hy) he
      · rintro ⟨h1, h2⟩
        refine ⟨?_, fun j x' y hj' hy he => h2 (j + 1) x' y (by simpa using hj') (by rw [show c + (j + 1) = c + 1 + j by omega]; exact hy) he⟩
        split
        · rename_i h
          have := h2 0 x recv[c] rfl (List.getElem?_eq_getElem hcl) h.symm
          rw [h, old_lt hi] at h1; omega
        · exact h1
    · intro h1 h2
      refine e4 ?_ h2
      intro i
      rw [old_set hi]
      split
      · have a1 := h1 i0
        have a2 := h2 recv[c] (List.getElem_mem hcl)
        rw [old_lt hi] at a1; omega
      · exact h1 i
end

theorem flag_skip {idx : List Edge} {good : Nat → Prop} {N i : Nat} {s : Flags} (h : FlagInv idx good N i s) (hi : ¬ good i) : FlagInv idx good N (i + 1) s := by
  refine { h with edges := ?_, maximal := ?_ }
  · intro k hk
    rcases h.edges k hk with h1 | ⟨h1, h2, h3⟩
    · exact Or.inl h1
    · exact Or.inr ⟨h1, by omega, h3⟩
  · intro k hk hkl hg
    rcases Nat.lt_or_ge k i with h1 | h1
    · exact h.maximal k h1 hkl hg
    · have : k = i := by omega
      subst this
      exact absurd hg hi

theorem rebuild_spec (dbg : Bool) {maps : List (KMap Nat)} {idx : List Edge} {good : Nat → Prop} {N : Nat} {fl : Flags} {em : List Nat} {Rule : Nat → Nat → Prop}
    (h : FlagInv idx good N idx.length fl) (hl : em.length = idx.length) (hsub : ∀ k, k < idx.length → old em k = 0 → old fl.emask k = 0)
    (hidx : ∀ k, k < idx.length → (edgeAt idx k).1 ≠ (edgeAt idx k).2 ∧ (edgeAt idx k).1 < N ∧ (edgeAt idx k).2 < N)
    (hkd : ∀ k, k < idx.length → old em k = 0 → ∃ kp d, keepDel dbg maps (edgeAt idx k) = .ok (kp, d) ∧
      (edgeAt idx k = (kp, d) ∨ edgeAt idx k = (d, kp)) ∧ Rule kp d) :
    ∀ (n i : Nat) (nm : List Nat) (s : Flags), i + n = idx.length → FlagInv idx (fun k => good k ∧ old em k = 0) N i s → nm.length = N →
      (∀ x, x < N → (old nm x = 0 ↔ old s.nmask x = 0)) → (∀ k, k < idx.length → (old s.emask k = 0 ↔ k < i ∧ old em k = 0)) →
      (∀ x, x < N → old s.coll x ≠ x → Rule (old s.coll x) x) →
      ∃ nm' s', rebuild dbg maps idx em i n (nm, s.coll) = .ok (nm', s'.coll) ∧ FlagInv idx (fun k => good k ∧ old em k = 0) N idx.length s' ∧ nm'.length = N ∧
        (∀ x, x < N → (old nm' x = 0 ↔ old s'.nmask x = 0)) ∧ (∀ k, k < idx.length → (old s'.emask k = 0 ↔ old em k = 0)) ∧
        (∀ x, x < N → old s'.coll x ≠ x → Rule (old s'.coll x) x)
  | 0, i, nm, s, hi, hF, h1, h2, h3, h4 => by
    have : i = idx.length := by omega
    subst this
    exact ⟨nm, s, rfl, hF, h1, h2, fun k hk => by rw [h3 k hk]; simp [hk], h4⟩
  | n + 1, i, nm, s, hi, hF, h1, h2, h3, h4 => by
    have hil : i < idx.length := by omega
    have hie : idx[i] = edgeAt idx i := by simp [edgeAt, hil]
    have hiem : em[i]'(by omega) = old em i := by simp [old, hl, hil]
    rw [rebuild, Res.bind_eq, rd_lt hil, Res.bind_ok, hie, Res.bind_eq, rd_lt (by omega), Res.bind_ok, hiem]
    by_cases h0 : old em i = 0
    · rw [if_pos h0]
      obtain ⟨kp, d, e1, e2, e3⟩ := hkd i hil h0
      obtain ⟨i1, i2, i3⟩ := hidx i hil
      have hdk : d ≠ kp ∧ d < N ∧ kp < N := by
        rcases e2 with e | e <;> rw [e] at i1 i2 i3 <;> simp only [] at i1 i2 i3
        · exact ⟨Ne.symm i1, i3, i2⟩
        · exact ⟨i1, i2, i3⟩
      -- the ends are untouched
      have fresh : ∀ x, x < N → (x = (edgeAt idx i).1 ∨ x = (edgeAt idx i).2) → old s.nmask x = 1 := by
        intro x hx hxe
        by_contra hcon
        have hit : ∃ k, k < idx.length ∧ old s.emask k = 0 ∧ (x = (edgeAt idx k).1 ∨ x = (edgeAt idx k).2) := by
          rcases hF.bits x hx with b | b | b
          · obtain ⟨k, k1, k2, k3, _⟩ := hF.gone x hx b
            exact ⟨k, k1, k2, by rcases k3 with e | e <;> rw [e] <;> simp⟩
          · exact absurd b hcon
          · obtain ⟨y, y1, y2, y3⟩ := hF.target x hx b
            have y4 := flags_gone hF y1 (by rw [y3]; exact Ne.symm y2)
            obtain ⟨k, k1, k2, k3, _⟩ := hF.gone y y1 y4
            rw [y3] at k3
            exact ⟨k, k1, k2, by rcases k3 with e | e <;> rw [e] <;> simp⟩
        obtain ⟨k, k1, k2, k3⟩ := hit
        obtain ⟨k4, k5⟩ := (h3 k k1).1 k2
        have := h.matching k i k1 hil (hsub k k1 k5) (hsub i hil h0) ⟨x, k3, hxe⟩
        omega
      have md : old s.nmask d = 1 := fresh d hdk.2.1 (by rcases e2 with e | e <;> rw [e] <;> simp)
      have mk : old s.nmask kp = 1 := fresh kp hdk.2.2 (by rcases e2 with e | e <;> rw [e] <;> simp)
      have hgood : good i := by
        rcases h.edges i hil with a | ⟨_, _, a, _⟩
        · rw [hsub i hil h0] at a; omega
        · exact a
      have hnew := flag_update hF hil ⟨hgood, h0⟩ hdk.1 e2.symm hdk.2.1 hdk.2.2 md mk
      have hcl : d < s.coll.length := by rw [hF.coll_len]; exact hdk.2.1
      obtain ⟨nm', s', r1, r2⟩ := rebuild_spec dbg h hl hsub hidx hkd n (i + 1) (nm.set d 0) _ (by omega) hnew (by simp [h1]) (by
        intro x hx
        simp only []
        rw [old_set (by omega), old_set (by simp [hF.nmask_len]; exact hdk.2.1), old_set (by rw [hF.nmask_len]; exact hdk.2.2)]
        by_cases hxd : x = d
        · simp [hxd]
        · rw [if_neg hxd, if_neg hxd]
          by_cases hxk : x = kp
          · rw [if_pos hxk, h2 x hx, hxk, mk]; omega
          · rw [if_neg hxk, h2 x hx]) (by
        intro k hk
        simp only []
        rw [old_set (by rw [hF.emask_len]; exact hil)]
        by_cases hki : k = i
        · subst hki; simp [h0]
        · rw [if_neg hki, h3 k hk]
          constructor
          · rintro ⟨a, b⟩; exact ⟨by omega, b⟩
          · rintro ⟨a, b⟩; exact ⟨by omega, b⟩) (by
        intro x hx
        simp only []
        rw [old_set hcl]
        by_cases hxd : x = d
        · rw [if_pos hxd, hxd]; exact fun _ => e3
        · rw [if_neg hxd]; exact h4 x hx)
      refine ⟨nm', s', ?_, r2⟩
      rw [Res.bind_eq, e1, Res.bind_ok]
      simp only [Res.bind_eq]
      rw [wr_lt (by omega), Res.bind_ok, wr_lt hcl, Res.bind_ok]
      exact r1
    · rw [if_neg h0]
      refine rebuild_spec dbg h hl hsub hidx hkd n (i + 1) nm s (by omega) (flag_skip hF fun hc => h0 hc.2) h1 h2 ?_ h4
      intro k hk
      rw [h3 k hk]
      constructor
      · rintro ⟨a, b⟩; exact ⟨by omega, b⟩
      · rintro ⟨a, b⟩
        refine ⟨?_, b⟩
        by_contra hcon
        have : k = i := by omega
        subst this
        exact h0 b

/-- Which end of an edge stays: a shared node that goes moves to a shared node further to the front of the list; another one moves to a shared node or to one with a smaller number. -/
def Stays (sn : List Nat) (k d : Nat) : Prop := (∀ j : Nat, sn[j]? = some d → ∃ i : Nat, i < j ∧ sn[i]? = some k) ∧ (d ∉ sn → k ∈ sn ∨ k < d)

theorem keepDel_spec (dbg : Bool) {sn : List Nat} (hn : sn.Nodup) {pm : KMap Nat} (hp : Positions sn pm) {e : Edge} (he : e.1 < e.2) :
    ∃ k d, keepDel dbg [pm] e = .ok (k, d) ∧ (e = (k, d) ∨ e = (d, k)) ∧ Stays sn k d := by
  have hpos : ∀ n, (pm.lookup n).isSome = true ↔ n ∈ sn := by
    intro n
    rw [Option.isSome_iff_exists, List.mem_iff_getElem?]
    exact exists_congr fun i => hp n i
  have huniq : ∀ {n i j : Nat}, sn[i]? = some n → sn[j]? = some n → i = j := by
    intro n i j h1 h2
    exact (List.getElem?_inj (List.getElem?_eq_some_iff.1 h1).1 hn).1 (h1.trans h2.symm)
  by_cases h1 : e.1 ∈ sn
  · obtain ⟨i, hi⟩ := List.mem_iff_getElem?.1 h1
    have li := (hp _ _).2 hi
    by_cases h2 : e.2 ∈ sn
    · obtain ⟨j, hj⟩ := List.mem_iff_getElem?.1 h2
      have lj := (hp _ _).2 hj
      have hnb : edgeNbrs [pm] e = [0] := by simp [edgeNbrs, li, lj]
      have hij : i ≠ j := by rintro rfl; rw [hi] at hj; simp at hj; omega
      unfold keepDel
      rw [hnb]
      simp only [Res.bind_eq, Res.pure_eq]
      rw [Res.assert_true dbg trivial, Res.bind_ok, rd_lt (by simp), Res.bind_ok]
      simp only [List.getElem_cons_zero, li, lj, Option.getD_some]
      by_cases hlt : j < i
      · refine ⟨e.2, e.1, by rw [if_pos hlt], Or.inr rfl, ?_, fun h => absurd h1 h⟩
        intro j' hj'
        rw [huniq hj' hi]
        exact ⟨j, hlt, hj⟩
      · refine ⟨e.1, e.2, by rw [if_neg hlt], Or.inl rfl, ?_, fun h => absurd h2 h⟩
        intro j' hj'
        rw [huniq hj' hj]
        exact ⟨i, by omega, hi⟩
    · have l2 : (pm.lookup e.2).isSome = false := by rw [Bool.eq_false_iff]; exact fun h => h2 ((hpos _).1 h)
      have hnb : edgeNbrs [pm] e = [] := by simp [edgeNbrs, l2]
      refine ⟨e.1, e.2, ?_, Or.inl rfl, fun j hj => absurd (List.mem_of_getElem? hj) h2, fun _ => Or.inl h1⟩
      unfold keepDel
      rw [hnb]
      simp [nodeShared, l2]
  · have l1 : (pm.lookup e.1).isSome = false := by rw [Bool.eq_false_iff]; exact fun h => h1 ((hpos _).1 h)
    have hnb : edgeNbrs [pm] e = [] := by simp [edgeNbrs, l1]
    unfold keepDel
    rw [hnb]
    by_cases h2 : e.2 ∈ sn
    · have l2 := (hpos _).2 h2
      exact ⟨e.2, e.1, by simp [nodeShared, l1, l2], Or.inr rfl, fun j hj => absurd (List.mem_of_getElem? hj) h1, fun _ => Or.inl h2⟩
    · have l2 : (pm.lookup e.2).isSome = false := by rw [Bool.eq_false_iff]; exact fun h => h2 ((hpos _).1 h)
      exact ⟨e.1, e.2, by simp [nodeShared, l2], Or.inl rfl, fun j hj => absurd (List.mem_of_getElem? hj) h2, fun _ => Or.inr he⟩

end Verif.Editor
