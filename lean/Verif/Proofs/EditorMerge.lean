import Verif.Proofs.Editor
import Verif.Proofs.EditorFlag
import Mathlib.Algebra.Order.Field.Basic
/- From the flags to the cleaned mesh: `MeshEditor::cleanEdges` merges nodes along a matching of short edges. -/
namespace Verif.Editor
open Verif Verif.Mesh Verif.Internal
variable {R K : Type}

theorem forall₂_left {α β : Type} {P : α → β → Prop} : ∀ {l : List α} {l' : List β}, List.Forall₂ P l l' → ∀ a ∈ l, ∃ b ∈ l', P a b
  | _, _, .nil, a, h => by simp at h
  | _, _, .cons hp ht, a, h => by
    rcases List.mem_cons.1 h with rfl | h
    · exact ⟨_, by simp, hp⟩
    · obtain ⟨b, hb, hq⟩ := forall₂_left ht a h
      exact ⟨b, by simp [hb], hq⟩

theorem forall₂_right {α β : Type} {P : α → β → Prop} : ∀ {l : List α} {l' : List β}, List.Forall₂ P l l' → ∀ b ∈ l', ∃ a ∈ l, P a b
  | _, _, .nil, a, h => by simp at h
  | _, _, .cons hp ht, b, h => by
    rcases List.mem_cons.1 h with rfl | h
    · exact ⟨_, by simp, hp⟩
    · obtain ⟨a, ha, hq⟩ := forall₂_right ht b h
      exact ⟨a, by simp [ha], hq⟩

theorem keys_get {keys : KMap Edge} {ks : List Edge} (hn : Numbers keys ks) {k : Edge} {i : Nat} (h : (k, i) ∈ keys) :
    i < keys.length ∧ edgeAt (keys.map Prod.fst) i = k := by
  obtain ⟨j, hj, e⟩ := List.getElem_of_mem h
  have : (keys.map Prod.snd)[j]'(by simpa using hj) = j := by simp [hn.ids]
  rw [List.getElem_map, e] at this
  simp only at this
  subst this
  exact ⟨hj, by simp [edgeAt, hj, e]⟩

theorem keys_mem {keys : KMap Edge} {ks : List Edge} (hn : Numbers keys ks) {i : Nat} (h : i < keys.length) :
    (edgeAt (keys.map Prod.fst) i, i) ∈ keys := by
  have : (keys.map Prod.snd)[i]'(by simpa using h) = i := by simp [hn.ids]
  rw [List.getElem_map] at this
  have e : keys[i] = (edgeAt (keys.map Prod.fst) i, i) := by
    apply Prod.ext
    · simp [edgeAt, h]
    · exact this
  rw [← e]; exact List.getElem_mem h

section
variable [Field K] [LinearOrder K] [IsStrictOrderedRing K]

/-- The edge (unordered pair of nodes) `e` is short. -/
def ShortEdge (m : Tess R) (dist : List R → List R → K) (tol : K) (e : Edge) : Prop := ∃ f, f < m.faces.length ∧ fk m f = e ∧ Short m dist tol f

omit [Field K] [LinearOrder K] [IsStrictOrderedRing K] in
theorem lengthIs_elen {m : Tess R} {dist : List R → List R → K} (hp : Planar m) (hsym : ∀ p q, dist p q = dist q p) {f : Nat}
    (hf : f < m.faces.length) (l : K) : lengthIs m dist f l ↔ l = elen 2 m dist (fk m f) := by
  obtain ⟨a, b, hF, hab⟩ := hp.face hf
  have : elen 2 m dist (fk m f) = dist (node 2 m a) (node 2 m b) := by
    rw [fk_of hF, elen]
    rcases edgeKey_cases a b with e | e <;> rw [e]
    exact hsym _ _
  rw [this, lengthIs]
  constructor
  · rintro ⟨x, y, e, rfl⟩
    rw [hF] at e
    simp only [List.cons.injEq, and_true] at e
    rw [← e.1, ← e.2]
  · intro h; exact ⟨a, b, hF, h⟩

theorem flagEdges_spec (dbg : Bool) {m : Tess R} {dist : List R → List R → K} {collin : List R → List R → List R → Bool} {tol : K}
    (hc : Consistent 2 m) (hp : Planar m) (hb : ClosedBoundary m) (hsym : ∀ p q, dist p q = dist q p) (hnn : ∀ p q, 0 ≤ dist p q)
    (hcol : ∀ p q r, collin p q r = collin p r q) (ht : 0 < tol) :
    ∃ sc corner fl, flagEdges dbg 2 m dist collin tol = .ok (sc, corner, fl) ∧
      ScanOK 2 m dist sc (m.cells.flatten.map fun s => fk m (posID s)) ∧
      FlagInv sc.idx (fun i => ShortEdge m dist tol (edgeAt sc.idx i) ∧ ¬ Corner m collin (edgeAt sc.idx i).1 ∧ ¬ Corner m collin (edgeAt sc.idx i).2)
        (numNodes 2 m) sc.idx.length fl := by
  obtain ⟨ids, sc, e1, hs, hF, _, hbord⟩ := scanCells_spec dbg hc hp hsym m.cells {} [] ⟨numbers_nil, rfl, rfl⟩ hc.cells_lt
  simp only [List.nil_append] at hs hbord
  have hbord : sc.border = allPushes m := hbord
  obtain ⟨corner, e2, hcor⟩ := corners_spec dbg hc hp hb collin hcol (sc.border.map Prod.fst).eraseDups (by
    intro n hn
    rw [List.mem_eraseDups, hbord] at hn
    exact (border_mem hc n).1 hn)
  rw [← hbord] at e2
  have hcor' : ∀ n, n ∈ corner ↔ Corner m collin n := by
    intro n
    rw [hcor]
    refine ⟨fun h => h.2, fun h => ⟨?_, h⟩⟩
    obtain ⟨f, g, a, b, _, hf, _, ja, _⟩ := h
    rw [List.mem_eraseDups, hbord]
    exact (border_mem hc n).2 ⟨f, hf, by rcases ja with j | j <;> simp [j]⟩
  have hil : sc.idx.length = sc.keys.length := by rw [hs.idx, List.length_map]
  have hll : sc.len.length = sc.keys.length := by rw [hs.len, List.length_map, hil]
  have hidlt : ∀ es ∈ ids, ∀ e ∈ es, e < sc.len.length := by
    intro es hes e he
    obtain ⟨C, hC, hCe⟩ := forall₂_right hF es hes
    obtain ⟨s, hs', hm⟩ := forall₂_right hCe e he
    rw [hll]; exact (keys_get hs.nums hm).1
  obtain ⟨mx, e3, hmxl, _, hmx2, hmx3⟩ := maxLens_spec sc.len ids (List.replicate sc.keys.length 0) (by simp [hll]) hidlt
  have hkey : ∀ i, i < sc.keys.length → ∃ s ∈ m.cells.flatten, edgeAt sc.idx i = fk m (posID s) := by
    intro i hi
    have := keys_mem hs.nums hi
    rw [← hs.idx] at this
    have h2 : edgeAt sc.idx i ∈ sc.keys.map Prod.fst := List.mem_map.2 ⟨_, this, rfl⟩
    rw [hs.nums.keys] at h2
    obtain ⟨s, h3, h4⟩ := List.mem_map.1 h2
    exact ⟨s, h3, h4.symm⟩
  have hidx : ∀ k, k < sc.idx.length → (edgeAt sc.idx k).1 ≠ (edgeAt sc.idx k).2 ∧ (edgeAt sc.idx k).1 < numNodes 2 m ∧ (edgeAt sc.idx k).2 < numNodes 2 m := by
    intro k hk
    obtain ⟨s, h1, h2⟩ := hkey k (by omega)
    have hlt := flatten_lt hc s h1
    obtain ⟨a, b, hab, hne⟩ := hp.face hlt
    have hmem := hc.faces_lt _ (face_mem hlt)
    rw [hab] at hmem
    have ha := hmem a (by simp)
    have hb' := hmem b (by simp)
    rw [h2, fk_of hab]
    rcases edgeKey_cases a b with e | e <;> rw [e]
    · exact ⟨hne, ha, hb'⟩
    · exact ⟨Ne.symm hne, hb', ha⟩
  have hlenv : ∀ i, i < sc.keys.length → valAt sc.len i = elen 2 m dist (edgeAt sc.idx i) := by
    intro i hi
    simp [valAt, hs.len, edgeAt, (by omega : i < sc.idx.length)]
  have hgood : ∀ i, i < sc.keys.length → (GoodEdge tol sc.len mx corner sc.idx i ↔
      ShortEdge m dist tol (edgeAt sc.idx i) ∧ ¬ Corner m collin (edgeAt sc.idx i).1 ∧ ¬ Corner m collin (edgeAt sc.idx i).2) := by
    intro i hi
    unfold GoodEdge
    rw [hcor', hcor']
    refine and_congr_left fun _ => ?_
    constructor
    · intro h
      rcases hmx3 i with e | e | ⟨es, hes, hies, e, hee, hv⟩
      · rw [show valAt (List.replicate sc.keys.length (0 : K)) i = 0 by simp [valAt, hi]] at e
        rw [e, mul_zero, hlenv i hi] at h
        exact absurd h (not_lt.2 (hnn _ _))
      · rw [e, mul_zero, hlenv i hi] at h
        exact absurd h (not_lt.2 (hnn _ _))
      · obtain ⟨C, hC, hCe⟩ := forall₂_right hF es hes
        obtain ⟨s, hs1, hm1⟩ := forall₂_right hCe i hies
        obtain ⟨t, ht1, hm2⟩ := forall₂_right hCe e hee
        obtain ⟨ke, ee⟩ := keys_get hs.nums hm2
        obtain ⟨_, ei⟩ := keys_get hs.nums hm1
        rw [← hs.idx] at ee ei
        rw [hv, hlenv i hi, hlenv e ke, ee, ei] at h
        obtain ⟨c, hcl, rfl⟩ := List.getElem_of_mem hC
        have hlt := hc.cells_lt _ hC
        have hcell : cell m c = m.cells[c] := by simp [cell, hcl]
        refine ⟨posID s, hlt s hs1, ei.symm, c, hcl, s, by rw [hcell]; exact hs1, rfl, t, by rw [hcell]; exact ht1, _, _,
          (lengthIs_elen hp hsym (hlt s hs1) _).2 rfl, (lengthIs_elen hp hsym (hlt t ht1) _).2 rfl, h⟩
    · rintro ⟨f, hf, hfe, c, hcl, s, hs1, rfl, t, ht1, l, l', hl, hl', hlt⟩
      have hC : cell m c ∈ m.cells := cell_mem hcl
      have hlt' := hc.cells_lt _ hC
      rw [lengthIs_elen hp hsym hf] at hl
      rw [lengthIs_elen hp hsym (hlt' t ht1)] at hl'
      obtain ⟨es, hes, hCe⟩ := forall₂_left hF _ hC
      obtain ⟨j, hj, hm1⟩ := forall₂_left hCe s hs1
      obtain ⟨k, hk, hm2⟩ := forall₂_left hCe t ht1
      have hji : j = i := by
        have h1 := keys_mem hs.nums hi
        rw [← hs.idx, ← hfe] at h1
        exact (hs.nums.fst_inj hm1 h1).1 rfl
      subst hji
      obtain ⟨_, hup⟩ := hmx2 es hes j hj
      obtain ⟨kk, ek⟩ := keys_get hs.nums hm2
      rw [← hs.idx] at ek
      have := hup k hk
      rw [hlenv k kk, ek, ← hl'] at this
      rw [hlenv j hi, ← hfe, ← hl]
      exact lt_of_lt_of_le hlt (mul_le_mul_of_nonneg_left this (le_of_lt ht))
  obtain ⟨fl, e4, hinv⟩ := flagLoop_spec (tol := tol) (border := sc.border) (corner := corner) (by omega : sc.len.length = sc.idx.length) (by omega : mx.length = sc.idx.length) hidx
    sc.idx.length 0 (Flags.init sc.idx.length (numNodes 2 m)) (by omega) (flagInv_init _ _ _)
  refine ⟨sc, corner, fl, ?_, hs, ?_⟩
  · unfold flagEdges
    rw [Res.bind_eq, Res.assert_true dbg ht, Res.bind_ok, Res.bind_eq, e1, Res.bind_ok]
    simp only [Res.bind_eq, Res.pure_eq]
    rw [Res.assert_true dbg hll.symm, Res.bind_ok, Res.assert_true dbg hF.length_eq.symm, Res.bind_ok, Res.assert_true dbg hil.symm, Res.bind_ok, e2, Res.bind_ok,
      e3, Res.bind_ok]
    rw [hil] at e4
    unfold numNodes at e4
    rw [e4, Res.bind_ok]
  · refine { hinv with edges := ?_, maximal := ?_ }
    · intro k hk
      rcases hinv.edges k hk with h | ⟨h1, h2, h3, h4⟩
      · left; exact h
      · right; exact ⟨h1, h2, (hgood k (by omega)).1 h3, h4⟩
    · intro k hk hk' hg
      exact hinv.maximal k hk hk' ((hgood k (by omega)).2 hg)

theorem joins_of_fk {m : Tess R} (hp : Planar m) {f a b : Nat} (hf : f < m.faces.length) (h : fk m f = (a, b) ∨ fk m f = (b, a)) : JoinsNodes m f a b := by
  obtain ⟨x, y, hF, hne⟩ := hp.face hf
  rw [fk_of hF] at h
  unfold JoinsNodes
  rw [hF]
  rcases edgeKey_cases x y with e | e <;> rw [e] at h <;> simp only [Prod.mk.injEq] at h <;> simp only [List.cons.injEq, and_true] <;> omega

theorem fk_of_joins {m : Tess R} {f a b : Nat} (h : JoinsNodes m f a b) : fk m f = edgeKey a b := by
  rcases h with h | h
  · exact fk_of h
  · rw [fk_of h, edgeKey_symm]

theorem flags_gone {idx : List Edge} {good : Nat → Prop} {N i : Nat} {fl : Flags} (h : FlagInv idx good N i fl) {n : Nat} (hn : n < N) (hne : old fl.coll n ≠ n) :
    old fl.nmask n = 0 := by
  by_contra hcon
  exact hne (h.kept_self n hn hcon)

theorem flags_lt {idx : List Edge} {good : Nat → Prop} {N i : Nat} {fl : Flags} (h : FlagInv idx good N i fl) (n : Nat) (hn : n < N) : old fl.coll n < N := by
  by_cases hz : old fl.nmask n = 0
  · obtain ⟨_, _, _, _, _, h5⟩ := h.gone n hn hz
    exact h5
  · rw [h.kept_self n hn hz]; exact hn

theorem flags_idem {idx : List Edge} {good : Nat → Prop} {N i : Nat} {fl : Flags} (h : FlagInv idx good N i fl) (n : Nat) (hn : n < N) :
    old fl.coll (old fl.coll n) = old fl.coll n := by
  by_cases hz : old fl.nmask n = 0
  · obtain ⟨_, _, _, _, h4, h5⟩ := h.gone n hn hz
    exact h.kept_self _ h5 (by omega)
  · rw [h.kept_self n hn hz, h.kept_self n hn hz]

theorem flags_once {idx : List Edge} {good : Nat → Prop} {N i : Nat} {fl : Flags} (h : FlagInv idx good N i fl) (n n' : Nat) (hn : n < N) (hn' : n' < N)
    (hne : old fl.coll n ≠ n) (hne' : old fl.coll n' ≠ n') (heq : old fl.coll n = old fl.coll n') : n = n' := by
  obtain ⟨k, hk, h1, h2, h3, h4⟩ := h.gone n hn (flags_gone h hn hne)
  obtain ⟨k', hk', h1', h2', h3', h4'⟩ := h.gone n' hn' (flags_gone h hn' hne')
  have hkk : k = k' := h.matching k k' hk hk' h1 h1' ⟨old fl.coll n, by rcases h2 with e | e <;> rw [e] <;> simp, by
    rw [heq]; rcases h2' with e | e <;> rw [e] <;> simp⟩
  subst hkk
  rw [← heq] at h2' hne'
  rcases h2 with e | e <;> rw [e] at h2' <;> simp only [Prod.mk.injEq] at h2' <;> omega

/-- Which end of a merged edge stays: `B` says whether a node is on the boundary. -/
def Choice (B : Nat → Prop) (coll : List Nat) : Prop := ∀ n, n < coll.length → old coll n ≠ n → (B n → B (old coll n)) ∧ ((B n ↔ B (old coll n)) → old coll n < n)

omit [IsStrictOrderedRing K] in
theorem flagLoop_choice {tol : K} {len mx : List K} {border : List (Nat × Nat)} {corner : List Nat} {idx : List Edge} (hlt : ∀ e ∈ idx, e.1 < e.2) :
    ∀ (n i : Nat) (s s' : Flags), flagLoop tol len mx border corner idx i n s = .ok s' → Choice (fun n => isBorder border n = true) s.coll →
    Choice (fun n => isBorder border n = true) s'.coll
  | 0, i, s, s', e, h => by simp only [flagLoop, Res.ok.injEq] at e; subst e; exact h
  | n + 1, i, s, s', e, h => by
    rw [flagLoop] at e
    obtain ⟨s1, e1, e2⟩ := Res.bind_eq_ok.1 e
    refine flagLoop_choice hlt n (i + 1) s1 s' e2 ?_
    unfold flagStep at e1
    obtain ⟨x, x1, e1⟩ := Res.bind_eq_ok.1 e1
    obtain ⟨_, _, e1⟩ := Res.bind_eq_ok.1 e1
    obtain ⟨_, _, e1⟩ := Res.bind_eq_ok.1 e1
    obtain ⟨_, _, e1⟩ := Res.bind_eq_ok.1 e1
    obtain ⟨_, _, e1⟩ := Res.bind_eq_ok.1 e1
    have hxlt := hlt x (List.mem_of_getElem? (rd_eq_ok.1 x1))
    split at e1
    · rename_i hcond
      obtain ⟨_, _, e1⟩ := Res.bind_eq_ok.1 e1
      obtain ⟨_, _, e1⟩ := Res.bind_eq_ok.1 e1
      obtain ⟨_, _, e1⟩ := Res.bind_eq_ok.1 e1
      obtain ⟨c, hc, e1⟩ := Res.bind_eq_ok.1 e1
      simp only [Res.pure_eq, Res.ok.injEq] at e1
      subst e1
      simp only []
      have hnc : x.2 ∉ corner := fun h => hcond.2.2.2 (Or.inr h)
      simp only [hnc, decide_false, Bool.false_or] at hc
      intro k hkl hk
      obtain ⟨hd, rfl⟩ := wr_eq_ok.1 hc
      rw [List.length_set] at hkl
      rw [old_set hd] at hk ⊢
      by_cases hkd : k = if (isBorder border x.2 && !isBorder border x.1) = true then x.1 else x.2
      · rw [if_pos hkd]
        subst hkd
        cases b1 : isBorder border x.1 <;> cases b2 : isBorder border x.2 <;> simp [b1, b2] <;> omega
      · rw [if_neg hkd] at hk ⊢
        exact h k hkl hk
    · simp only [Res.pure_eq, Res.ok.injEq] at e1
      subst e1; exact h

omit [IsStrictOrderedRing K] in
theorem flagEdges_choice {dbg : Bool} {m : Tess R} {dist : List R → List R → K} {collin : List R → List R → List R → Bool} {tol : K}
    {sc : Scan K} {corner : List Nat} {fl : Flags} (hc : Consistent 2 m) (hp : Planar m) (hsym : ∀ p q, dist p q = dist q p)
    (e : flagEdges dbg 2 m dist collin tol = .ok (sc, corner, fl)) : Choice (OnRim m) fl.coll := by
  obtain ⟨ids, sc', e1, hs, _, _, hbord⟩ := scanCells_spec dbg hc hp hsym m.cells {} [] ⟨numbers_nil, rfl, rfl⟩ hc.cells_lt
  simp only [List.nil_append] at hs hbord
  have hbord : sc'.border = allPushes m := hbord
  unfold flagEdges at e
  obtain ⟨_, _, e⟩ := Res.bind_eq_ok.1 e
  rw [Res.bind_eq, e1, Res.bind_ok] at e
  simp only [] at e
  obtain ⟨_, _, e⟩ := Res.bind_eq_ok.1 e
  obtain ⟨_, _, e⟩ := Res.bind_eq_ok.1 e
  obtain ⟨_, _, e⟩ := Res.bind_eq_ok.1 e
  obtain ⟨_, _, e⟩ := Res.bind_eq_ok.1 e
  obtain ⟨_, _, e⟩ := Res.bind_eq_ok.1 e
  obtain ⟨fl', hfl, e⟩ := Res.bind_eq_ok.1 e
  simp only [Res.pure_eq, Res.ok.injEq, Prod.mk.injEq] at e
  obtain ⟨rfl, rfl, rfl⟩ := e
  have := flagLoop_choice (by
    intro e he
    rw [hs.idx, hs.nums.keys, List.mem_map] at he
    obtain ⟨s, h1, rfl⟩ := he
    obtain ⟨x, y, hxy, hne⟩ := hp.face (flatten_lt hc s h1)
    rw [fk_of hxy]
    unfold edgeKey
    split <;> simp <;> omega) _ _ _ _ hfl (by
    intro n hl hn
    simp only [Flags.init, List.length_range] at hl hn
    exact absurd (old_range hl) hn)
  intro n hl hn
  have h := this n hl hn
  rw [hbord] at h
  simp only [isBorder_iff hc] at h
  exact h

omit [IsStrictOrderedRing K] in
theorem matching_of_flags {m : Tess R} {dist : List R → List R → K} {collin : List R → List R → List R → Bool} {tol : K} {sc : Scan K} {fl : Flags}
    (hc : Consistent 2 m) (hp : Planar m)
    (hs : ScanOK 2 m dist sc (m.cells.flatten.map fun s => fk m (posID s)))
    (h : FlagInv sc.idx (fun i => ShortEdge m dist tol (edgeAt sc.idx i) ∧ ¬ Corner m collin (edgeAt sc.idx i).1 ∧ ¬ Corner m collin (edgeAt sc.idx i).2)
        (numNodes 2 m) sc.idx.length fl) (hch : Choice (OnRim m) fl.coll) : Matching m dist collin tol (old fl.coll) := by
  have hgone : ∀ n, n < numNodes 2 m → old fl.coll n ≠ n → old fl.nmask n = 0 := fun n hn hne => flags_gone h hn hne
  refine ⟨flags_idem h, flags_lt h, ?_, flags_once h, ?_, fun n hn hne => (hch n (by rw [h.coll_len]; exact hn) hne).1,
    fun n hn hne => (hch n (by rw [h.coll_len]; exact hn) hne).2⟩
  · intro n hn hne
    obtain ⟨k, hk, h1, h2, h3, h4⟩ := h.gone n hn (hgone n hn hne)
    rcases h.edges k hk with h5 | ⟨_, _, ⟨⟨f, hf, hfe, hsh⟩, hc1, hc2⟩, _⟩
    · omega
    · refine ⟨f, hf, joins_of_fk hp hf (by rw [hfe]; exact h2), hsh, ?_⟩
      rcases h2 with e | e <;> rw [e] at hc1 hc2
      · exact ⟨hc1, hc2⟩
      · exact ⟨hc2, hc1⟩
  · intro f a b hf hj hsh hca hcb
    obtain ⟨s, hs1, hs2⟩ := face_in_cell hc hf
    have hk : fk m f ∈ sc.keys.map Prod.fst := by
      rw [hs.nums.keys]; exact List.mem_map.2 ⟨s, hs1, by rw [hs2]⟩
    obtain ⟨⟨e, i⟩, hm, he⟩ := List.mem_map.1 hk
    simp only at he
    subst he
    obtain ⟨hi, hie⟩ := keys_get hs.nums hm
    rw [← hs.idx] at hie
    have hil : i < sc.idx.length := by rw [hs.idx, List.length_map]; exact hi
    have hends : edgeAt sc.idx i = (a, b) ∨ edgeAt sc.idx i = (b, a) := by
      rw [hie, fk_of_joins hj]; exact edgeKey_cases a b
    have hgood : ShortEdge m dist tol (edgeAt sc.idx i) ∧ ¬ Corner m collin (edgeAt sc.idx i).1 ∧ ¬ Corner m collin (edgeAt sc.idx i).2 := by
      refine ⟨⟨f, hf, hie.symm, hsh⟩, ?_⟩
      rcases hends with e | e <;> rw [e]
      · exact ⟨hca, hcb⟩
      · exact ⟨hcb, hca⟩
    -- a node whose mask is not 1 takes part in a merge
    have part : ∀ x, x < numNodes 2 m → old fl.nmask x ≠ 1 → ∃ n, n < numNodes 2 m ∧ old fl.coll n ≠ n ∧ (n = x ∨ old fl.coll n = x) := by
      intro x hx hx1
      rcases h.bits x hx with h0 | h0 | h0
      · obtain ⟨k, _, _, _, h2, _⟩ := h.gone x hx h0
        exact ⟨x, hx, fun e => by rw [e] at h2; omega, Or.inl rfl⟩
      · exact absurd h0 hx1
      · obtain ⟨d, e1, e2, e3⟩ := h.target x hx h0
        exact ⟨d, e1, by rw [e3]; exact Ne.symm e2, Or.inr e3⟩
    have hab : a < numNodes 2 m ∧ b < numNodes 2 m := by
      have := hc.faces_lt _ (face_mem hf)
      rcases hj with j | j <;> rw [j] at this <;> exact ⟨this a (by simp), this b (by simp)⟩
    have fin : ∀ x, (x = a ∨ x = b) → old fl.nmask x ≠ 1 → ∃ n, n < numNodes 2 m ∧ old fl.coll n ≠ n ∧ (n = a ∨ n = b ∨ old fl.coll n = a ∨ old fl.coll n = b) := by
      intro x hx hx1
      obtain ⟨n, h1, h2, h3⟩ := part x (by rcases hx with rfl | rfl; exact hab.1; exact hab.2) hx1
      refine ⟨n, h1, h2, ?_⟩
      rcases hx with rfl | rfl <;> tauto
    rcases h.maximal i hil hil hgood with h0 | h0 | h0
    · rcases h.edges i hil with h5 | ⟨_, _, _, d, p, he, hd, _, _⟩
      · omega
      · refine fin d ?_ (by omega)
        rcases hends with e | e <;> rw [e] at he <;> simp only [Prod.mk.injEq] at he <;> omega
    · refine fin _ ?_ h0
      rcases hends with e | e <;> rw [e] <;> simp
    · refine fin _ ?_ h0
      rcases hends with e | e <;> rw [e] <;> simp

theorem mem_kept_map {l : List Nat} {g : Nat → Bool} {n : Nat} : n ∈ kept (l.map g) ↔ n < l.length ∧ g (old l n) = true := by
  rw [mem_kept, List.getElem?_map]
  constructor
  · intro h
    obtain ⟨x, h1, h2⟩ := Option.map_eq_some_iff.1 h
    obtain ⟨h3, h4⟩ := List.getElem?_eq_some_iff.1 h1
    exact ⟨h3, by simp [old, h3, h4, h2]⟩
  · rintro ⟨h1, h2⟩
    simpa [old, h1] using h2

theorem keptCells_ones (n : Nat) : keptCells (List.replicate n 1) = List.range n := by
  unfold keptCells
  rw [List.length_replicate, List.filter_eq_self]
  intro c hc
  simp only [List.mem_range] at hc
  simp [hc]

theorem old_rank_kept {bs : List Bool} {j : Nat} (h : j ∈ kept bs) : old (kept bs) (old (rankMap bs 0) j) = j ∧ old (rankMap bs 0) j < (kept bs).length := old_rankMap h

omit [IsStrictOrderedRing K] in
/-- An edge is flagged exactly if its ends are merged. -/
theorem flags_merge_iff {m : Tess R} {dist : List R → List R → K} {sc : Scan K} {fl : Flags} {good : Nat → Prop} {i0 : Nat}
    (hc : Consistent 2 m) (hp : Planar m) (hs : ScanOK 2 m dist sc (m.cells.flatten.map fun s => fk m (posID s)))
    (h : FlagInv sc.idx good (numNodes 2 m) i0 fl) {a b i : Nat} (hik : i < sc.keys.length) (ha : a < numNodes 2 m) (hbN : b < numNodes 2 m) (hne : a ≠ b)
    (hends : edgeAt sc.idx i = (a, b) ∨ edgeAt sc.idx i = (b, a)) : old fl.emask i = 0 ↔ old fl.coll a = old fl.coll b := by
  have hil : sc.idx.length = sc.keys.length := by rw [hs.idx, List.length_map]
  constructor
  · intro h0
    rcases h.edges i (by omega) with h1 | ⟨_, _, _, d, p, he, hd, hp2, hcd⟩
    · omega
    · have : (d = a ∧ p = b) ∨ (d = b ∧ p = a) := by
        rcases hends with e | e <;> rw [e] at he <;> simp only [Prod.mk.injEq] at he <;> omega
      rcases this with ⟨rfl, rfl⟩ | ⟨rfl, rfl⟩
      · rw [hcd, h.kept_self _ hbN (by omega)]
      · rw [hcd, h.kept_self _ ha (by omega)]
  · intro heq
    -- one of the ends moves onto the other
    have mv : ∀ n p, n < numNodes 2 m → old fl.coll n = p → p ≠ n → (edgeAt sc.idx i = (n, p) ∨ edgeAt sc.idx i = (p, n)) → old fl.emask i = 0 := by
      intro n p hn hnp hpn he
      have h0 : old fl.nmask n = 0 := by
        by_contra hcon
        exact hpn (hnp ▸ h.kept_self n hn hcon)
      obtain ⟨k, hk, h1, h2, _⟩ := h.gone n hn h0
      rw [hnp] at h2
      have hki : k = i := by
        have m1 := keys_mem hs.nums (by omega : k < sc.keys.length)
        have m2 := keys_mem hs.nums (by omega : i < sc.keys.length)
        rw [← hs.idx] at m1 m2
        have hsame : edgeAt sc.idx k = edgeAt sc.idx i := by
          have hkk : ∀ j, j < sc.keys.length → (edgeAt sc.idx j).1 < (edgeAt sc.idx j).2 := by
            intro j hj
            have hm' := keys_mem hs.nums hj
            rw [← hs.idx] at hm'
            have hmm : edgeAt sc.idx j ∈ sc.keys.map Prod.fst := List.mem_map.2 ⟨_, hm', rfl⟩
            rw [hs.nums.keys] at hmm
            obtain ⟨s, hs3, hs4⟩ := List.mem_map.1 hmm
            obtain ⟨x, y, hxy, hxne⟩ := hp.face (flatten_lt hc s hs3)
            rw [← hs4, fk_of hxy]
            unfold edgeKey
            split <;> simp <;> omega
          have o1 := hkk k (by omega)
          have o2 := hkk i hik
          rcases h2 with e | e <;> rcases he with e' | e' <;> rw [e] at o1 ⊢ <;> rw [e'] at o2 ⊢ <;> simp only [Prod.mk.injEq] at o1 o2 ⊢ <;> omega
        exact (hs.nums.fst_inj m1 m2).1 hsame
      rw [← hki]; exact h1
    by_cases hfa : old fl.coll a = a
    · refine mv b a hbN (by rw [← heq, hfa]) hne (hends.symm)
    · by_cases hfb : old fl.coll b = b
      · exact mv a b ha (by rw [heq, hfb]) (Ne.symm hne) hends
      · exact absurd (flags_once h a b ha hbN hfa hfb heq) hne

omit [IsStrictOrderedRing K] in
theorem cleaned_merged (dbg : Bool) {m : Tess R} {dist : List R → List R → K} {sc : Scan K} {fl : Flags} {good : Nat → Prop} {i0 : Nat}
    (hc : Consistent 2 m) (hcm : CommOK 2 m) (hp : Planar m)
    (hs : ScanOK 2 m dist sc (m.cells.flatten.map fun s => fk m (posID s)))
    (h : FlagInv sc.idx good (numNodes 2 m) i0 fl) (hdirty : fl.clean = false) :
    ∃ fm nodeMap m' kn kf, faceMask dbg 1 sc.keys fl.emask m.faces = .ok fm ∧
      composeMap fl.coll 0 (numNodes 2 m) (rankMap (fl.nmask.map fun x => decide (x ≠ 0)) 0) = .ok nodeMap ∧
      (fl.nmask.map fun x => decide (x ≠ 0)).countP id < numNodes 2 m ∧
      cleanMesh dbg 2 m (List.replicate m.cells.length 1) fm (fl.nmask.map fun x => decide (x ≠ 0)) (List.range m.cells.length) (rankMap fm 0) nodeMap = .ok m' ∧
      Merged 2 m kn kf (old fl.coll) m' ∧ m'.boundaryNodes = m.boundaryNodes ∧ m'.boundaryFaces = m.boundaryFaces ∧ m'.neighborDomains = m.neighborDomains := by
  have hil : sc.idx.length = sc.keys.length := by rw [hs.idx, List.length_map]
  have hkeys : ∀ f, f < m.faces.length → fk m f ∈ m.cells.flatten.map fun s => fk m (posID s) := by
    intro f hf
    obtain ⟨s, hs1, hs2⟩ := face_in_cell hc hf
    exact List.mem_map.2 ⟨s, hs1, by rw [hs2]⟩
  obtain ⟨fm, e1, hfm⟩ := faceMask_spec dbg hs.nums fl.emask (by rw [h.emask_len, hil]) (by
    intro k hk
    rw [h.emask_len] at hk
    rcases h.edges k hk with h1 | ⟨h1, _⟩
    · right; exact h1
    · left; exact h1) m.faces (by
    intro F hF
    obtain ⟨f, hf, rfl⟩ := List.getElem_of_mem hF
    obtain ⟨a, b, hab, hne⟩ := hp.face hf
    have : m.faces[f] = [a, b] := by rw [← hab]; simp [face, hf]
    exact ⟨a, b, this, hne, by rw [← fk_of hab]; exact hkeys f hf⟩)
  have hfml : fm.length = m.faces.length := hfm.length_eq.symm
  -- the face mask
  have hkf : ∀ f, f ∈ kept fm ↔ f < m.faces.length ∧ ∀ a b, face m f = [a, b] → old fl.coll a ≠ old fl.coll b := by
    intro f
    rw [mem_kept]
    by_cases hf : f < m.faces.length
    · obtain ⟨a, b, hab, hne⟩ := hp.face hf
      have hF : m.faces[f] = [a, b] := by rw [← hab]; simp [face, hf]
      obtain ⟨a', b', i, hF', hi, hb⟩ := (List.forall₂_iff_get.1 hfm).2 f hf (by omega)
      simp only [List.get_eq_getElem] at hF' hb
      rw [hF] at hF'
      simp only [List.cons.injEq, and_true] at hF'
      obtain ⟨rfl, rfl⟩ := hF'
      obtain ⟨hik, hie⟩ := keys_get hs.nums hi
      rw [← hs.idx] at hie
      have hmem := hc.faces_lt _ (face_mem hf)
      rw [hab] at hmem
      have ha := hmem a (by simp)
      have hbN := hmem b (by simp)
      have hends : edgeAt sc.idx i = (a, b) ∨ edgeAt sc.idx i = (b, a) := by rw [hie]; exact edgeKey_cases a b
      have key : old fl.emask i = 0 ↔ old fl.coll a = old fl.coll b := flags_merge_iff hc hp hs h hik ha hbN hne hends
      rw [List.getElem?_eq_getElem (by omega), hb]
      simp only [Option.some.injEq, decide_eq_true_eq]
      constructor
      · intro hz
        refine ⟨hf, fun x y hxy => ?_⟩
        rw [hab] at hxy
        simp only [List.cons.injEq, and_true] at hxy
        rw [← hxy.1, ← hxy.2]
        exact fun e => hz (key.2 e)
      · rintro ⟨_, hz⟩ h0
        exact hz a b hab (key.1 h0)
    · simp [hf, (by omega : fm.length ≤ f)]
  have hcl : fl.coll.length = numNodes 2 m := h.coll_len
  have hnml : (fl.nmask.map fun x => decide (x ≠ 0)).length = numNodes 2 m := by simp [h.nmask_len]
  obtain ⟨nodeMap, e2, hnl, hnv⟩ := composeMap_spec fl.coll (rankMap (fl.nmask.map fun x => decide (x ≠ 0)) 0) (by rw [rankMap_length, hnml, hcl])
    (by rw [hcl]; exact (flags_lt h)) (by rw [hcl]; exact (flags_idem h)) (numNodes 2 m) 0 _ (by omega) rfl (by intro j hj; simp)
  have hkn : ∀ n, n ∈ kept (fl.nmask.map fun x => decide (x ≠ 0)) ↔ n < numNodes 2 m ∧ old fl.nmask n ≠ 0 := by
    intro n; rw [mem_kept_map, h.nmask_len]; simp
  have htgt : ∀ n, n < numNodes 2 m → old fl.coll n ∈ kept (fl.nmask.map fun x => decide (x ≠ 0)) := by
    intro n hn
    rw [hkn]
    refine ⟨(flags_lt h) n hn, ?_⟩
    by_cases hz : old fl.nmask n = 0
    · obtain ⟨_, _, _, _, h4, _⟩ := h.gone n hn hz; omega
    · rw [h.kept_self n hn hz]; exact hz
  -- some edge is flagged
  obtain ⟨k, hk, hk0⟩ : ∃ k, k < sc.idx.length ∧ old fl.emask k = 0 := by
    by_contra hcon
    push Not at hcon
    have := h.clean.2 hcon
    rw [hdirty] at this; simp at this
  obtain ⟨d, hdN, hd0⟩ : ∃ d, d < numNodes 2 m ∧ old fl.nmask d = 0 := by
    rcases h.edges k hk with h1 | ⟨_, _, _, d, p, he, hd, _, _⟩
    · omega
    · refine ⟨d, ?_, hd⟩
      have hkm := keys_mem hs.nums (by omega : k < sc.keys.length)
      rw [← hs.idx] at hkm
      have h2 : edgeAt sc.idx k ∈ sc.keys.map Prod.fst := List.mem_map.2 ⟨_, hkm, rfl⟩
      rw [hs.nums.keys] at h2
      obtain ⟨s', h3, h4⟩ := List.mem_map.1 h2
      have hl' := flatten_lt hc s' h3
      have hj' := joins_of_fk hp hl' (a := d) (b := p) (by rw [h4]; exact he)
      exact hc.faces_lt _ (face_mem hl') d (by rcases hj' with j | j <;> simp [j])
  have hcount : (fl.nmask.map fun x => decide (x ≠ 0)).countP id < numNodes 2 m := by
    rw [← hnml]
    refine lt_of_le_of_ne List.countP_le_length ?_
    rw [Ne, List.countP_eq_length]
    intro hall
    have := hall false (List.mem_map.2 ⟨old fl.nmask d, by rw [old_lt (by rw [h.nmask_len]; exact hdN)]; exact List.getElem_mem _, by simp [hd0]⟩)
    simp at this
  have hcells : 0 < m.cells.length := by
    by_contra hcon
    have : m.cells = [] := List.eq_nil_of_length_eq_zero (by omega)
    have h1 := keys_mem hs.nums (by omega : k < sc.keys.length)
    have h2 : edgeAt (sc.keys.map Prod.fst) k ∈ sc.keys.map Prod.fst := List.mem_map.2 ⟨_, h1, rfl⟩
    rw [hs.nums.keys, this] at h2
    simp at h2
  have hfaces : 0 < m.faces.length := by
    by_contra hcon
    have h1 := keys_mem hs.nums (by omega : k < sc.keys.length)
    have h2 : edgeAt (sc.keys.map Prod.fst) k ∈ sc.keys.map Prod.fst := List.mem_map.2 ⟨_, h1, rfl⟩
    rw [hs.nums.keys] at h2
    obtain ⟨s', h3, _⟩ := List.mem_map.1 h2
    have := flatten_lt hc s' h3
    omega
  have hkeep : ∀ s : Int, posID s < m.cells.length → keeps (List.replicate m.cells.length 1) s = true := by
    intro s hs'; rw [keeps_iff, keptCells_ones, List.mem_range]; exact hs'
  have hmaps : MapsOK 2 m (List.replicate m.cells.length 1) fm (fl.nmask.map fun x => decide (x ≠ 0)) (List.range m.cells.length) (rankMap fm 0) nodeMap := by
    refine ⟨by simp, ?_, hfml, hnml, by simp, by rw [rankMap_length, hfml], by rw [hnl, rankMap_length, hnml], hcells, hfaces, by omega, ?_⟩
    · intro x hx; right; exact (List.mem_replicate.1 hx).2
    · intro f hf
      have hf' := ((hkf f).1 hf).1
      have hfl : f < m.faceCells.length := by rw [hc.faceCells_len]; exact hf'
      have hsz := hc.faceCells_size _ (cellsOf_mem hfl)
      obtain ⟨s, hs'⟩ := List.exists_mem_of_length_pos (by omega : 0 < (cellsOf m f).length)
      exact ⟨s, hs', hkeep s (hc.faceCells_lt _ (cellsOf_mem hfl) s hs')⟩
  obtain ⟨m', e3, g1, g2, g3, g4, g5, g6, g7, g8, g9, _⟩ := cleanMesh_ok dbg hc hcm hmaps (by
    intro c hc'
    rw [keptCells_ones, List.length_range]
    have := (List.getElem?_eq_some_iff.1 hc').1
    simpa using this)
  refine ⟨fm, nodeMap, m', kept (fl.nmask.map fun x => decide (x ≠ 0)), kept fm, e1, e2, hcount, e3, ?_, g8, g9, g7⟩
  have hnode : ∀ n, n < numNodes 2 m → old (kept (fl.nmask.map fun x => decide (x ≠ 0))) (old nodeMap n) = old fl.coll n ∧
      old nodeMap n < (kept (fl.nmask.map fun x => decide (x ≠ 0))).length := by
    intro n hn
    rw [hnv n (by omega)]
    exact old_rank_kept (htgt n hn)
  have hself : ∀ n ∈ kept (fl.nmask.map fun x => decide (x ≠ 0)), old fl.coll n = n := by
    intro n hn
    obtain ⟨h1, h2⟩ := (hkn n).1 hn
    exact h.kept_self n h1 h2
  have hfnode : ∀ f ∈ kept fm, ∀ n ∈ face m f, n < numNodes 2 m := fun f hf => hc.faces_lt _ (face_mem ((hkf f).1 hf).1)
  refine ⟨keptFrom_sorted _ _, keptFrom_sorted _ _, fun n hn => ((hkn n).1 hn).1, htgt, hself, hkf, g1, ?_, ?_, ?_, ?_, ?_, ?_, ?_, ?_, ?_⟩
  · rw [g2, List.map_map]
    apply List.map_congr_left
    intro f hf
    simp only [Function.comp, List.map_map]
    apply List.map_congr_left
    intro n hn
    exact (hnode n (hfnode f hf n hn)).1
  · rw [g2]
    intro F hF n hn
    obtain ⟨f, hf, rfl⟩ := List.mem_map.1 hF
    obtain ⟨x, hx, rfl⟩ := List.mem_map.1 hn
    exact (hnode x (hfnode f hf x hx)).2
  · rw [g4, keptCells_ones, List.length_range]
    apply List.ext_getElem
    · simp
    · intro c h1 h2
      have hcl' : c < m.cells.length := by simpa using h1
      simp only [List.getElem_map, List.getElem_range, List.getElem?_replicate, if_pos hcl', if_true, liveFaces]
      rw [map_oldS_rank (k := kept fm)]
      · simp [cell, hcl']
      · intro s hs'
        simp only [List.mem_filter, decide_eq_true_eq] at hs'
        exact (old_rank_kept hs'.2).1
  · rw [g4, keptCells_ones, List.length_range]
    intro C hC s hs'
    obtain ⟨c, hc', rfl⟩ := List.mem_map.1 hC
    unfold liveFaces at hs'
    obtain ⟨t, ht, rfl⟩ := List.mem_map.1 hs'
    simp only [List.mem_filter, decide_eq_true_eq] at ht
    rw [posID_oldS]
    exact (old_rank_kept ht.2).2
  · rw [g3]
    apply List.map_congr_left
    intro f hf
    have hfl : f < m.faceCells.length := by rw [hc.faceCells_len]; exact ((hkf f).1 hf).1
    have hlt := hc.faceCells_lt _ (cellsOf_mem hfl)
    rw [List.filter_eq_self.2 (fun s hs' => hkeep s (hlt s hs'))]
    conv_rhs => rw [← List.map_id (cellsOf m f)]
    apply List.map_congr_left
    intro s hs'
    have h1 := hlt s hs'
    unfold oldS
    rw [old_range h1]
    by_cases h0 : 0 ≤ s
    · rw [if_pos h0]; exact (eq_of_nonneg h0).symm
    · rw [if_neg h0]; exact (eq_flip_of_neg h0).symm
  · rw [g5, List.map_map]
    apply List.map_congr_left
    intro l hl
    simp only [Function.comp]
    refine map_old_rank fun n hn => ?_
    simp only [List.mem_filter, decide_eq_true_eq] at hn
    rw [(hnode n (hcm.nodes_lt l hl n hn.1)).1, hself n hn.2]
  · rw [g5]
    intro l hl n hn
    obtain ⟨l', hl', rfl⟩ := List.mem_map.1 hl
    obtain ⟨x, hx, rfl⟩ := List.mem_map.1 hn
    simp only [List.mem_filter, decide_eq_true_eq] at hx
    exact (hnode x (hcm.nodes_lt l' hl' x hx.1)).2
  · rw [g6, List.map_map]
    apply List.map_congr_left
    intro l hl
    simp only [Function.comp]
    refine map_old_rank fun n hn => ?_
    simp only [List.mem_filter, decide_eq_true_eq] at hn
    exact (old_rank_kept hn.2).1
  · rw [g6]
    intro l hl n hn
    obtain ⟨l', hl', rfl⟩ := List.mem_map.1 hl
    obtain ⟨x, hx, rfl⟩ := List.mem_map.1 hn
    simp only [List.mem_filter, decide_eq_true_eq] at hx
    exact (old_rank_kept hx.2).2

theorem take_eq_flatMap (D : Nat) (l : List R) : ∀ q, (List.range q).flatMap (fun i => (l.drop (D * i)).take D) = l.take (D * q)
  | 0 => by simp
  | q + 1 => by
    rw [List.range_succ, List.flatMap_append, take_eq_flatMap D l q, Nat.mul_succ, List.take_add]
    simp

theorem nodes_eq_flatMap {D : Nat} {m : Tess R} (hc : Consistent D m) : m.nodes = (List.range (numNodes D m)).flatMap (node D m) := by
  have := take_eq_flatMap D m.nodes (numNodes D m)
  rw [numNodes, Nat.mul_div_cancel' hc.nodes_dvd, List.take_length] at this
  exact this.symm

/-- Nothing merged: the identity. -/
theorem merged_refl {m : Tess R} (hc : Consistent 2 m) (hcm : CommOK 2 m) (hp : Planar m) {tgt : Nat → Nat} (ht : ∀ n, n < numNodes 2 m → tgt n = n) :
    Merged 2 m (List.range (numNodes 2 m)) (List.range m.faces.length) tgt m := by
  have hsorted : ∀ n, (List.range n).Pairwise (· < ·) := fun n => List.pairwise_lt_range
  have idN : ∀ (N : Nat) (l : List Nat), (∀ x ∈ l, x < N) → l.map (old (List.range N)) = l := by
    intro N l hl
    conv_rhs => rw [← List.map_id l]
    exact List.map_congr_left fun x hx => old_range (hl x hx)
  have idS : ∀ (N : Nat) (l : List Int), (∀ x ∈ l, posID x < N) → l.map (oldS (List.range N)) = l := by
    intro N l hl
    conv_rhs => rw [← List.map_id l]
    apply List.map_congr_left
    intro s hs
    unfold oldS
    rw [old_range (hl s hs)]
    by_cases h0 : 0 ≤ s
    · rw [if_pos h0]; exact (eq_of_nonneg h0).symm
    · rw [if_neg h0]; exact (eq_flip_of_neg h0).symm
  refine ⟨hsorted _, hsorted _, by simp, ?_, ?_, ?_, ?_, ?_, ?_, ?_, ?_, ?_, ?_, ?_, ?_, ?_⟩
  · intro n hn; rw [ht n hn]; simpa using hn
  · intro n hn; exact ht n (by simpa using hn)
  · intro f
    simp only [List.mem_range]
    constructor
    · intro hf
      refine ⟨hf, fun a b hab => ?_⟩
      obtain ⟨x, y, hxy, hne⟩ := hp.face hf
      have hmem := hc.faces_lt _ (face_mem hf)
      rw [hab] at hmem
      rw [ht a (hmem a (by simp)), ht b (hmem b (by simp))]
      rw [hab] at hxy
      simp only [List.cons.injEq, and_true] at hxy
      rw [hxy.1, hxy.2]; exact hne
    · exact fun h => h.1
  · exact nodes_eq_flatMap hc
  · apply List.ext_getElem
    · simp
    · intro f h1 h2
      have hf : f < m.faces.length := by simpa using h1
      simp only [List.getElem_map, List.getElem_range]
      have hfe : face m f = m.faces[f] := by simp [face, hf]
      have hmem := hc.faces_lt _ (face_mem hf)
      rw [hfe] at hmem ⊢
      rw [idN _ _ hmem]
      conv_lhs => rw [← List.map_id m.faces[f]]
      exact List.map_congr_left fun n hn => (ht n (hmem n hn)).symm
  · intro F hF n hn; rw [List.length_range]; exact hc.faces_lt F hF n hn
  · apply List.map_congr_left
    intro C hC
    have hmem := hc.cells_lt C hC
    rw [idS _ _ hmem, List.filter_eq_self.2]
    intro s hs; simpa using hmem s hs
  · intro C hC s hs; rw [List.length_range]; exact hc.cells_lt C hC s hs
  · apply List.ext_getElem
    · simp [hc.faceCells_len]
    · intro f h1 h2; simp [cellsOf, h1]
  · apply List.map_congr_left
    intro l hl
    have hmem := hcm.nodes_lt l hl
    rw [idN _ _ hmem, List.filter_eq_self.2]
    intro s hs; simpa using hmem s hs
  · intro l hl n hn; rw [List.length_range]; exact hcm.nodes_lt l hl n hn
  · apply List.map_congr_left
    intro l hl
    have hmem := hcm.faces_lt l hl
    rw [idN _ _ hmem, List.filter_eq_self.2]
    intro s hs; simpa using hmem s hs
  · intro l hl n hn; rw [List.length_range]; exact hcm.faces_lt l hl n hn

theorem cleanEdges_of_flags (dbg : Bool) {m : Tess R} {dist : List R → List R → K} {collin : List R → List R → List R → Bool} {tol : K}
    {sc : Scan K} {corner : List Nat} {fl : Flags} (hc : Consistent 2 m) (hcm : CommOK 2 m) (hp : Planar m) (ht : 0 < tol)
    (e : flagEdges dbg 2 m dist collin tol = .ok (sc, corner, fl)) (hs : ScanOK 2 m dist sc (m.cells.flatten.map fun s => fk m (posID s)))
    (h : FlagInv sc.idx (fun i => ShortEdge m dist tol (edgeAt sc.idx i) ∧ ¬ Corner m collin (edgeAt sc.idx i).1 ∧ ¬ Corner m collin (edgeAt sc.idx i).2)
        (numNodes 2 m) sc.idx.length fl) :
    ∃ m' kn kf, cleanEdges dbg 2 m dist collin tol = .ok m' ∧ Merged 2 m kn kf (old fl.coll) m' ∧
      ((∀ n, n < numNodes 2 m → old fl.coll n = n) → m' = m) ∧ m'.boundaryNodes = m.boundaryNodes ∧ m'.boundaryFaces = m.boundaryFaces ∧
      m'.neighborDomains = m.neighborDomains := by
  cases hcl : fl.clean with
  | true =>
    have hfix : ∀ n, n < numNodes 2 m → old fl.coll n = n := by
      intro n hn
      refine h.kept_self n hn fun h0 => ?_
      obtain ⟨k, hk, h1, _⟩ := h.gone n hn h0
      exact h.clean.1 hcl k hk h1
    refine ⟨m, _, _, ?_, merged_refl hc hcm hp hfix, fun _ => rfl, rfl, rfl, rfl⟩
    unfold cleanEdges flagEdgesForCleaning
    simp only [Res.bind_eq, Res.pure_eq, Res.assert_true dbg ht, Res.bind_ok, e, hcl, if_true]
  | false =>
    obtain ⟨fm, nodeMap, m', kn, kf, e1, e2, e3, e4, hmg, b1, b2, b3⟩ := cleaned_merged dbg hc hcm hp hs h hcl
    refine ⟨m', kn, kf, ?_, hmg, ?_, b1, b2, b3⟩
    · unfold cleanEdges flagEdgesForCleaning
      unfold numNodes at e2 e3
      simp only [Res.bind_eq, Res.pure_eq, Res.assert_true dbg ht, Res.bind_ok, e, hcl, Bool.false_eq_true, if_false, if_true, e1, e2]
      rw [Res.assert_true dbg e3]
      exact e4
    · intro hfix
      exfalso
      have : fl.clean = true := by
        rw [h.clean]
        intro k hk h0
        rcases h.edges k hk with h1 | ⟨_, _, _, d, p, he, hd, hp2, hcd⟩
        · omega
        · have hdN : d < numNodes 2 m := by
            have hil : sc.idx.length = sc.keys.length := by rw [hs.idx, List.length_map]
            have hkm := keys_mem hs.nums (by omega : k < sc.keys.length)
            rw [← hs.idx] at hkm
            have h2 : edgeAt sc.idx k ∈ sc.keys.map Prod.fst := List.mem_map.2 ⟨_, hkm, rfl⟩
            rw [hs.nums.keys] at h2
            obtain ⟨s', h3, h4⟩ := List.mem_map.1 h2
            have hl' := flatten_lt hc s' h3
            have hj' := joins_of_fk hp hl' (a := d) (b := p) (by rw [h4]; exact he)
            exact hc.faces_lt _ (face_mem hl') d (by rcases hj' with j | j <;> simp [j])
          have := hfix d hdN
          rw [hcd] at this
          subst this
          omega
      rw [hcl] at this; simp at this

theorem cleanEdges_spec (dbg : Bool) {m : Tess R} {dist : List R → List R → K} {collin : List R → List R → List R → Bool} {tol : K}
    (hc : Consistent 2 m) (hcm : CommOK 2 m) (hp : Planar m) (hb : ClosedBoundary m) (hsym : ∀ p q, dist p q = dist q p) (hnn : ∀ p q, 0 ≤ dist p q)
    (hcol : ∀ p q r, collin p q r = collin p r q) (ht : 0 < tol) :
    ∃ m' tgt kn kf, cleanEdges dbg 2 m dist collin tol = .ok m' ∧ Matching m dist collin tol tgt ∧ Merged 2 m kn kf tgt m' ∧
      ((∀ n, n < numNodes 2 m → tgt n = n) → m' = m) ∧ m'.boundaryNodes = m.boundaryNodes ∧ m'.boundaryFaces = m.boundaryFaces ∧
      m'.neighborDomains = m.neighborDomains := by
  obtain ⟨sc, corner, fl, e, hs, h⟩ := flagEdges_spec dbg hc hp hb hsym hnn hcol ht
  have hM := matching_of_flags hc hp hs h (flagEdges_choice hc hp hsym e)
  obtain ⟨m', kn, kf, e1, e2⟩ := cleanEdges_of_flags dbg hc hcm hp ht e hs h
  exact ⟨m', old fl.coll, kn, kf, e1, hM, e2⟩

end
end Verif.Editor
