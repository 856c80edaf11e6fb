import Verif.Proofs.EditorParAgree
import Verif.Proofs.Mpi
import Verif.Proofs.Gather
/- The exchange of masks between two processes that are each other's only neighbour. -/
namespace Verif.Editor
open Verif Verif.Mesh Verif.Internal Verif.Mpi

/-- The mask a process sends. -/
def ownMask (keys : KMap Edge) (emask sn : List Nat) (es : List Edge) : List (BitVec 32) :=
  es.map fun x => BitVec.ofNat 32 (old emask (eno keys (old sn x.1) (old sn x.2)))

theorem serList4_length : ∀ (p : List (BitVec 32)) (b : List Serialize.Byte), (Serialize.serList (Serialize.ser (.prim 4)) p b).length = b.length + 4 * p.length
  | [], b => by simp [Serialize.serList]
  | x :: p, b => by
    rw [Serialize.serList, serList4_length p]
    have h : (Serialize.ser (.prim 4) x b).length = b.length + 4 := by
      have : (Serialize.bytesOf 4 x).length = 4 := Serialize.bytesOf_length 4 x
      simp only [Serialize.ser, Serialize.serPrim, List.length_append, this]
    rw [h, List.length_cons]; omega

theorem ser4_length (p : List (BitVec 32)) (h : p.length < 2 ^ 32) : (Serialize.ser (.vec (.prim 4)) p []).length = 4 + 4 * p.length := by
  have h1 : p.length % 2 ^ 32 = p.length := Nat.mod_eq_of_lt h
  have h2 : p.take p.length = p := List.take_length
  show (Serialize.serVec (Serialize.ser (.prim 4)) p []).length = _
  rw [Serialize.serVec, h1, h2, serList4_length, Serialize.serSize, Serialize.serPrim, List.length_append, Serialize.bytesOf_length]
  simp

section
variable {R : Type} {m : Tess R}

theorem shared_count {sn : List Nat} (hn : sn.Nodup) {es : List Edge} (he : es.Nodup) (hes : ∀ x, x ∈ es ↔ IsShared m sn x) : es.length ≤ m.faces.length := by
  classical
  let g : Edge → Nat := fun x => if h : ∃ f, f < m.faces.length ∧ JoinsNodes m f (old sn x.1) (old sn x.2) then h.choose else 0
  have hg : ∀ x ∈ es, g x < m.faces.length ∧ JoinsNodes m (g x) (old sn x.1) (old sn x.2) := by
    intro x hx
    obtain ⟨_, _, h⟩ := (hes x).1 hx
    simp only [g, dif_pos h]
    exact h.choose_spec
  have hinj : ∀ x ∈ es, ∀ y ∈ es, g x = g y → x = y := by
    intro x hx y hy h
    obtain ⟨a1, a2, _⟩ := (hes x).1 hx
    obtain ⟨b1, b2, _⟩ := (hes y).1 hy
    have jx := (hg x hx).2
    have jy := (hg y hy).2
    rw [h] at jx
    have inj := fun {i j : Nat} (hi : i < sn.length) (hj : j < sn.length) => old_inj_nodup hn hi hj
    have : (old sn x.1 = old sn y.1 ∧ old sn x.2 = old sn y.2) ∨ (old sn x.1 = old sn y.2 ∧ old sn x.2 = old sn y.1) := by
      unfold JoinsNodes at jx jy
      rcases jx with j | j <;> rcases jy with j' | j' <;> rw [j] at j' <;> simp only [List.cons.injEq, and_true] at j' <;> omega
    rcases this with ⟨e1, e2⟩ | ⟨e1, e2⟩
    · exact Prod.ext (inj (by omega) (by omega) e1) (inj (by omega) (by omega) e2)
    · have := inj (by omega) (by omega) e1
      have := inj (by omega) (by omega) e2
      omega
  have hnd : (es.map g).Nodup := List.Nodup.map_on (fun x hx y hy h => hinj x hx y hy h) he
  have hsub : es.map g ⊆ List.range m.faces.length := by
    intro f hf
    obtain ⟨x, hx, rfl⟩ := List.mem_map.1 hf
    exact List.mem_range.2 (hg x hx).1
  simpa using (hnd.subperm hsub).length_le
end

section
variable {R K : Type} [Field K] [LinearOrder K] [IsStrictOrderedRing K]

/-- What a process has before the exchange. -/
structure Ready (dbg : Bool) (m : Tess R) (dist : List R → List R → K) (collin : List R → List R → List R → Bool) (tol : K)
    (sc : Scan K) (fl : Flags) (pm : KMap Nat) (es : List Edge) : Prop where
  scan : ScanOK 2 m dist sc (m.cells.flatten.map fun s => fk m (posID s))
  own : OwnFlags m dist collin tol sc fl
  keys : Keys m sc.keys
  pos : Positions (sharedN m) pm
  nodup : es.Nodup
  sorted : es.Pairwise pairLe
  mem : ∀ x, x ∈ es ↔ IsShared m (sharedN m) x
  flags : ∃ corner, flagEdges dbg 2 m dist collin tol = .ok (sc, corner, fl)
  shares : shares dbg (m.nodes.length / 2) m sc.keys fl.emask = .ok [⟨pm, es, ownMask sc.keys fl.emask (sharedN m) es⟩]

theorem ready (dbg : Bool) {m : Tess R} {dist : List R → List R → K} {collin : List R → List R → List R → Bool} {tol : K} {q : Nat}
    (hc : Consistent 2 m) (hcm : CommOK 2 m) (hp : Planar m) (hb : ClosedBoundary m) (hsym : ∀ p q, dist p q = dist q p) (hnn : ∀ p q, 0 ≤ dist p q)
    (hcol : ∀ p q r, collin p q r = collin p r q) (ht : 0 < tol) (hnb : m.neighborDomains = [q]) (hsn : m.sharedNodes.length = 1) (hn : (sharedN m).Nodup) :
    ∃ sc fl pm es, Ready dbg m dist collin tol sc fl pm es := by
  obtain ⟨sc, corner, fl, e, hs, h⟩ := flagEdges_spec dbg hc hp hb hsym hnn hcol ht
  have hk := keys_of_scan hc hp hs
  have hil : sc.idx.length = sc.keys.length := by rw [hs.idx, List.length_map]
  obtain ⟨a, hsn'⟩ := List.length_eq_one_iff.1 hsn
  have ha : sharedN m = a := by simp [sharedN, hsn']
  have hlt : ∀ n ∈ sharedN m, n < numNodes 2 m := hcm.nodes_lt _ (by rw [hsn', ha]; simp)
  obtain ⟨pm, es, s1, s2, s3, s4, s5⟩ := share_spec dbg hk (emask := fl.emask) (by rw [h.emask_len, hil]) hn hlt
  refine ⟨sc, fl, pm, es, hs, h, hk, s2, s3, s4, s5, ⟨corner, e⟩, ?_⟩
  unfold shares
  rw [hnb]
  simp only [List.length_singleton, List.range_one, List.mapM_cons, List.mapM_nil, Res.bind_eq, Res.pure_eq]
  rw [rd_lt (by rw [hsn', List.length_singleton]; omega), Res.bind_ok]
  have h0 : m.sharedNodes[0]'(by rw [hsn', List.length_singleton]; omega) = sharedN m := by simp [hsn', ha]
  rw [h0]
  have s1' : share dbg (m.nodes.length / 2) sc.keys fl.emask (sharedN m) = _ := s1
  rw [s1']
  rfl

variable {n : Nat} {mesh : Nat → Tess R} {mate : Nat → Nat} {dist : List R → List R → K} {collin : List R → List R → List R → Bool} {tol : K}
  {sc : Nat → Scan K} {fl : Nat → Flags} {pm : Nat → KMap Nat} {es : Nat → List Edge}

/-- The mask of process `p`. -/
def sentMask (mesh : Nat → Tess R) (sc : Nat → Scan K) (fl : Nat → Flags) (es : Nat → List Edge) (p : Nat) : List (BitVec 32) :=
  ownMask (sc p).keys (fl p).emask (sharedN (mesh p)) (es p)

/-- The state of process `p` with what it has received. -/
def stateOf (mesh : Nat → Tess R) (sc : Nat → Scan K) (fl : Nat → Flags) (pm : Nat → KMap Nat) (es : Nat → List Edge) (p : Nat) (recv : List (BitVec 32)) :
    ParState K := ⟨sc p, fl p, [⟨pm p, es p, sentMask mesh sc fl es p⟩], [recv]⟩

theorem maskFits (dbg : Bool) (hpair : Paired n mesh mate) (ht : 0 < tol)
    (hr : ∀ p, p < n → Ready dbg (mesh p) dist collin tol (sc p) (fl p) (pm p) (es p)) (hn : ∀ p, p < n → (sharedN (mesh p)).Nodup)
    (hsm : ∀ p, p < n → 4 + 4 * (mesh p).faces.length < 2 ^ 31) :
    Mpi.Fits (cleanProg dbg true 2 mesh dist collin tol) n
      (fun p => [(4 + 4 * (sentMask mesh sc fl es p).length, some (Serialize.ser (.vec (.prim 4)) (sentMask mesh sc fl es p) []))])
      (fun p k => stateOf mesh sc fl pm es p (if k = 0 then [] else sentMask mesh sc fl es (mate p))) := by
  have hml : ∀ p, p < n → 4 + 4 * (sentMask mesh sc fl es p).length < 2 ^ 31 := by
    intro p hp
    have h1 := shared_count (hn p hp) (hr p hp).nodup (hr p hp).mem
    have h2 := hsm p hp
    have h3 : (sentMask mesh sc fl es p).length = (es p).length := by simp [sentMask, ownMask]
    omega
  have hsl : ∀ p, p < n → (Serialize.ser (.vec (.prim 4)) (sentMask mesh sc fl es p) []).length = 4 + 4 * (sentMask mesh sc fl es p).length := by
    intro p hp
    have := hml p hp
    exact ser4_length _ (by omega)
  have hnb : ∀ p, p < n → (cleanProg dbg true 2 mesh dist collin tol).nbrs p = [mate p] := fun p hp => hpair.nbrs p hp
  refine ⟨?_, ?_, ?_, ?_, ?_, ?_, ?_⟩
  · intro p hp q hq
    rw [hnb p hp, List.mem_singleton] at hq
    rw [hq]; exact hpair.lt p hp
  · intro p hp q hq
    rw [hnb p hp, List.mem_singleton] at hq
    rw [hq, hnb _ (hpair.lt p hp), hpair.back p hp]
    simp
  · intro p hp; rw [hnb p hp]; simp
  · intro p hp; rw [hnb p hp]; simp
  · intro p hp
    obtain ⟨corner, hfl⟩ := (hr p hp).flags
    have h1 := hml p hp
    have h2 := hsl p hp
    simp only [cleanProg, Res.bind_eq, Res.pure_eq]
    rw [Res.assert_true dbg ht, Res.bind_ok, hfl, Res.bind_ok]
    simp only []
    rw [(hr p hp).shares, Res.bind_ok]
    simp only [Bool.true_eq_false, false_and, if_false, List.map_cons, List.map_nil, sendMasks, Res.bind_eq, Res.pure_eq]
    have h3 : (Serialize.ser (.vec (.prim 4)) (sentMask mesh sc fl es p) []).length % 2 ^ 32 = 4 + 4 * (sentMask mesh sc fl es p).length := by
      rw [h2]; exact Nat.mod_eq_of_lt (by omega)
    have h4 : (Serialize.ser (.vec (.prim 4)) (sentMask mesh sc fl es p) []).take (4 + 4 * (sentMask mesh sc fl es p).length) =
        Serialize.ser (.vec (.prim 4)) (sentMask mesh sc fl es p) [] := by rw [← h2, List.take_length]
    rw [show ownMask (sc p).keys (fl p).emask (sharedN (mesh p)) (es p) = sentMask mesh sc fl es p from rfl]
    rw [h3, if_neg (by omega), if_neg (by omega)]
    simp only [Res.bind_ok]
    rw [h4, hpair.nbrs p hp]
    rfl
  · intro p hp; rw [hnb p hp]; rfl
  · intro p hp k q j sz d hk hj hm
    rw [hnb p hp] at hk
    obtain ⟨hkl, hkq⟩ := List.getElem?_eq_some_iff.1 hk
    simp only [List.length_singleton] at hkl
    obtain rfl : k = 0 := by omega
    simp only [List.getElem_cons_zero] at hkq
    subst hkq
    have hq := hpair.lt p hp
    obtain ⟨hjl, hjq⟩ := List.getElem?_eq_some_iff.1 hm
    simp only [List.length_singleton] at hjl
    obtain rfl : j = 0 := by omega
    simp only [List.getElem_cons_zero, Prod.mk.injEq] at hjq
    obtain ⟨rfl, rfl⟩ := hjq
    have h1 := hml _ hq
    have hl := hsl _ hq
    refine ⟨?_, fun h => (by cases h), ?_⟩
    · simp only [cleanProg, Res.pure_eq, Option.isSome_some]; congr 1; simp
    · intro c hc
      cases hc
      have hf : Serialize.Fits (.vec (.prim 4)) (sentMask mesh sc fl es (mate p)) := ⟨by omega, fun _ _ => trivial⟩
      have hd := Serialize.C03_vector_appends dbg (.prim 4) (sentMask mesh sc fl es (mate p)) [] hf [] []
      rw [List.append_nil, List.nil_append] at hd
      simp only [List.length_nil] at hd
      simp only [cleanProg, Res.pure_eq, Res.bind_eq, hl, Nat.sub_self, List.replicate_zero, List.append_nil]
      rw [if_neg (by omega), hd]
      simp only [Res.bind_ok, hl]
      rw [Res.assert_true dbg (by simp), Res.bind_ok, wr_lt (by simp [stateOf]), Res.bind_ok]
      simp [stateOf]

/-- What process `p` ends with. -/
theorem finish_joint (dbg : Bool) {m q : Tess R} {sc sc' : Scan K} {fl fl' : Flags} {pm pm' : KMap Nat} {es es' : List Edge} {r : Nat} (ht : 0 < tol)
    (hc : Consistent 2 m) (hcm : CommOK 2 m) (hp : Planar m) (hc' : Consistent 2 q) (hp' : Planar q) (hcm' : CommOK 2 q)
    (h : Ready dbg m dist collin tol sc fl pm es) (h' : Ready dbg q dist collin tol sc' fl' pm' es')
    (hnb : m.neighborDomains = [r]) (hsn : m.sharedNodes.length = 1) (hsn' : q.sharedNodes.length = 1) (hn : (sharedN m).Nodup) (hn' : (sharedN q).Nodup)
    (hl : (sharedN m).length = (sharedN q).length) (he : SameEdges m q) :
    ∃ m' s kn kf, finish dbg 2 m ⟨sc, fl, [⟨pm, es, ownMask sc.keys fl.emask (sharedN m) es⟩], [ownMask sc'.keys fl'.emask (sharedN q) es']⟩ = .ok m' ∧
      Merged 2 m kn kf s m' ∧ m'.neighborDomains = m.neighborDomains ∧ m'.boundaryNodes = m.boundaryNodes ∧ m'.boundaryFaces = m.boundaryFaces ∧
      ((∀ n, n < numNodes 2 m → s n = n) → m' = m) ∧ Joint m q (old fl.coll) (old fl'.coll) s := by
  have hee : es = es' := by
    refine shared_same h.nodup h.sorted h'.nodup h'.sorted fun x => ?_
    rw [h.mem, h'.mem]
    unfold IsShared
    rw [hl]
    constructor
    · rintro ⟨a, b, c⟩; exact ⟨a, b, (he x.1 x.2 (by omega) (by omega)).1 c⟩
    · rintro ⟨a, b, c⟩; exact ⟨a, b, (he x.1 x.2 (by omega) (by omega)).2 c⟩
  subst hee
  have hbits : ∀ {sc : Scan K} {fl : Flags} {m : Tess R}, OwnFlags m dist collin tol sc fl → ∀ i, old fl.emask i ≤ 1 := by
    intro sc fl m h i
    by_cases hi : i < sc.idx.length
    · rcases h.edges i hi with a | ⟨a, _⟩ <;> omega
    · simp [old, h.emask_len, hi, List.getElem?_eq_none]
  have hnat : ∀ i, (BitVec.ofNat 32 (old fl'.emask i)).toNat = old fl'.emask i := by
    intro i
    have := hbits h'.own i
    rw [BitVec.toNat_ofNat]
    exact Nat.mod_eq_of_lt (by omega)
  obtain ⟨a, hsa⟩ := List.length_eq_one_iff.1 hsn
  have ha : sharedN m = a := by simp [sharedN, hsa]
  obtain ⟨b, hsb⟩ := List.length_eq_one_iff.1 hsn'
  have hb : sharedN q = b := by simp [sharedN, hsb]
  have hltN' : ∀ n ∈ sharedN q, n < numNodes 2 q := hcm'.nodes_lt _ (by rw [hsb, hb]; simp)
  obtain ⟨m', kn, kf, s, f1, f2, f3, f4, f5, f6, ⟨good, f7⟩, f8, f9⟩ := finish_spec dbg (fl := fl) (pm := pm) (es := es)
    (mask := ownMask sc.keys fl.emask (sharedN m) es) (recv := ownMask sc'.keys fl'.emask (sharedN q) es) (q := r) (sn := sharedN m) hc hcm hp h.scan h.own hnb
    (by rw [hsa, ha]) hn h.pos h.mem (by simp [ownMask]) (by
      intro y hy
      obtain ⟨x, _, rfl⟩ := List.mem_map.1 hy
      rw [hnat]; exact hbits h'.own _)
  have hil : sc.idx.length = sc.keys.length := by rw [h.scan.idx, List.length_map]
  have hil' : sc'.idx.length = sc'.keys.length := by rw [h'.scan.idx, List.length_map]
  -- edges and merges
  have iff_of : ∀ {m : Tess R} {sc : Scan K} {fl : Flags} {good : Nat → Prop} {i0 : Nat}, Consistent 2 m → Planar m → 
      ScanOK 2 m dist sc (m.cells.flatten.map fun s => fk m (posID s)) → Keys m sc.keys → FlagInv sc.idx good (numNodes 2 m) i0 fl →
      ∀ f a b, f < m.faces.length → JoinsNodes m f a b → (old fl.emask (eno sc.keys a b) = 0 ↔ old fl.coll a = old fl.coll b) := by
    intro m sc fl good i0 hc hp hs hk hi f a b hf hj
    obtain ⟨k1, k2, k3⟩ := hk.eno hf hj
    have hmem := hc.faces_lt _ (face_mem hf)
    have hne : a ≠ b := by
      obtain ⟨x, y, hxy, hne⟩ := hp.face hf
      rcases hj with j | j <;> rw [j] at hxy <;> simp only [List.cons.injEq, and_true] at hxy <;> omega
    refine flags_merge_iff hc hp hs hi k2 (hmem a (by rcases hj with j | j <;> simp [j])) (hmem b (by rcases hj with j | j <;> simp [j])) hne ?_
    rw [hs.idx, k3]
    unfold edgeKey
    split <;> simp
  refine ⟨m', old s.coll, kn, kf, f1, f2, f3, f4, f5, f6, ?_, flags_once f7, ?_, ?_, ?_⟩
  · intro x hx hne
    obtain ⟨k, hk, h1, h2, _⟩ := f7.gone x hx (flags_gone f7 hx hne)
    have hkm := keys_mem h.keys.numbers (by omega : k < sc.keys.length)
    rw [← h.scan.idx] at hkm
    have h3 : edgeAt sc.idx k ∈ sc.keys.map Prod.fst := List.mem_map.2 ⟨_, hkm, rfl⟩
    have h4 : edgeKey x (old s.coll x) = edgeAt sc.idx k := by
      have := (h.keys.ord _ h3).1
      rcases h2 with e | e <;> rw [e] at this ⊢
      · exact edgeKey_of_lt this
      · rw [edgeKey_comm]; exact edgeKey_of_lt this
    rw [← h4] at h3
    exact (h.keys.mem _ _).1 h3
  · intro f u v hf hj
    obtain ⟨k1, k2, k3⟩ := h.keys.eno hf hj
    rw [← iff_of hc hp h.scan h.keys f7 f u v hf hj, ← iff_of hc hp h.scan h.keys h.own f u v hf hj, f8 _ (by omega)]
    refine and_congr_right fun _ => ?_
    -- positions of both ends
    have key : ∀ i j, i < (sharedN m).length → j < (sharedN m).length → old (sharedN m) i = u → old (sharedN m) j = v → i < j →
        (old fl'.emask (eno sc'.keys (old (sharedN q) i) (old (sharedN q) j)) = 0 ↔ old fl'.coll (old (sharedN q) i) = old fl'.coll (old (sharedN q) j)) := by
      intro i j hi hj' ei ej _
      obtain ⟨f', hf', hjj⟩ := (he i j hi hj').1 ⟨f, hf, by rw [ei, ej]; exact hj⟩
      exact iff_of hc' hp' h'.scan h'.keys h'.own f' _ _ hf' hjj
    have enoc : ∀ keys x y, eno keys x y = eno keys y x := by intro keys x y; unfold eno; rw [edgeKey_comm]
    constructor
    · intro hall i j hi hj' ei ej
      obtain ⟨f', hf', hjj⟩ := (he i j hi hj').1 ⟨f, hf, by rw [ei, ej]; exact hj⟩
      rw [← iff_of hc' hp' h'.scan h'.keys h'.own f' _ _ hf' hjj]
      have hne : i ≠ j := by
        rintro rfl
        obtain ⟨x, y, hxy, hne⟩ := hp.face hf
        rcases hj with j | j <;> rw [j] at hxy <;> simp only [List.cons.injEq, and_true] at hxy <;> omega
      rcases lt_or_gt_of_ne hne with hij | hij
      · have hx : (i, j) ∈ es := (h.mem _).2 ⟨hij, hj', f, hf, by simp only [ei, ej]; exact hj⟩
        obtain ⟨t, ht1, ht2⟩ := List.mem_iff_getElem.1 hx
        have := hall t (i, j) _ (by rw [List.getElem?_eq_getElem ht1, ht2]) (by rw [ownMask, List.getElem?_map, List.getElem?_eq_getElem ht1, ht2]; rfl)
          (by simp only [ei, ej])
        rwa [hnat] at this
      · have hx : (j, i) ∈ es := (h.mem _).2 ⟨hij, hi, f, hf, by simp only [ei, ej]; exact hj.symm⟩
        obtain ⟨t, ht1, ht2⟩ := List.mem_iff_getElem.1 hx
        have := hall t (j, i) _ (by rw [List.getElem?_eq_getElem ht1, ht2]) (by rw [ownMask, List.getElem?_map, List.getElem?_eq_getElem ht1, ht2]; rfl)
          (by simp only [ei, ej]; exact enoc _ _ _)
        rw [hnat] at this
        rw [enoc]; exact this
    · intro hall t x y hx hy ht'
      have hxe : x ∈ es := List.mem_of_getElem? hx
      obtain ⟨x1, x2, g, hg, hjg⟩ := (h.mem x).1 hxe
      have hxi : x.1 < (sharedN m).length := by omega
      obtain ⟨l1, l2, l3⟩ := h.keys.eno hg hjg
      have hkk : edgeKey (old (sharedN m) x.1) (old (sharedN m) x.2) = edgeKey u v := by rw [← l3, ← k3, ht']
      rw [ownMask, List.getElem?_map, hx] at hy
      simp only [Option.map_some, Option.some.injEq] at hy
      rw [← hy, hnat]
      obtain ⟨f', hf', hjj⟩ := (he x.1 x.2 hxi x2).1 ⟨g, hg, hjg⟩
      rw [iff_of hc' hp' h'.scan h'.keys h'.own f' _ _ hf' hjj]
      have : (old (sharedN m) x.1 = u ∧ old (sharedN m) x.2 = v) ∨ (old (sharedN m) x.1 = v ∧ old (sharedN m) x.2 = u) := by
        unfold edgeKey at hkk
        split at hkk <;> split at hkk <;> simp only [Prod.mk.injEq] at hkk <;> omega
      rcases this with ⟨e1, e2⟩ | ⟨e1, e2⟩
      · exact hall x.1 x.2 hxi x2 e1 e2
      · exact (hall x.2 x.1 x2 hxi e2 e1).symm
  · intro j hj hne
    have hjm : old (sharedN m) j < numNodes 2 m := hcm.nodes_lt _ (by rw [hsa, ha]; simp) _ (old_mem hj)
    obtain ⟨i, hi, e⟩ := (f9 _ hjm hne).1 j (old_getElem? hj)
    exact ⟨i, hi, (old_of_getElem? e).1.symm⟩
  · intro x hx hxs hne
    exact (f9 x hx hne).2 hxs
end
end Verif.Editor
