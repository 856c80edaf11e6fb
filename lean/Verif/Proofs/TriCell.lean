import Verif.Proofs.TriScan
import Verif.Proofs.FaceEdges
/- The edges of one cell, and their order around it. -/
namespace Verif.Tri
open Verif Verif.Mesh Verif.Internal Verif.Geom Verif.Readout

/-- Entry `a` of a list, counted modulo its length. -/
def cyc (l : List Nat) (a : Int) : Nat := l.getD (a % l.length).toNat 0

theorem cyc_inj {l : List Nat} (hn : l.Nodup) (h0 : 0 < l.length) (a b : Int) : cyc l a = cyc l b ↔ (l.length : Int) ∣ a - b := by
  have ha := Int.emod_nonneg a (b := (l.length : Int)) (by omega)
  have hb := Int.emod_nonneg b (b := (l.length : Int)) (by omega)
  have ha' := Int.emod_lt_of_pos a (b := (l.length : Int)) (by omega)
  have hb' := Int.emod_lt_of_pos b (b := (l.length : Int)) (by omega)
  have h1 : (a % l.length).toNat < l.length := by omega
  have h2 : (b % l.length).toNat < l.length := by omega
  have e1 : cyc l a = l[(a % l.length).toNat] := by simp [cyc, List.getD, h1]
  have e2 : cyc l b = l[(b % l.length).toNat] := by simp [cyc, List.getD, h2]
  rw [e1, e2, hn.getElem_inj_iff]
  constructor
  · intro h
    have : a % l.length = b % l.length := by omega
    exact Int.dvd_of_emod_eq_zero (Int.emod_eq_emod_iff_emod_sub_eq_zero.1 this)
  · intro h
    have : a % l.length = b % l.length := Int.emod_eq_emod_iff_emod_sub_eq_zero.2 (Int.emod_eq_zero_of_dvd h)
    rw [this]

theorem cyc_mem {l : List Nat} (h0 : 0 < l.length) (a : Int) : cyc l a ∈ l := by
  have ha := Int.emod_nonneg a (b := (l.length : Int)) (by omega)
  have ha' := Int.emod_lt_of_pos a (b := (l.length : Int)) (by omega)
  have h1 : (a % l.length).toNat < l.length := by omega
  simp [cyc, List.getD, h1]

theorem cyc_nat {l : List Nat} {k : Nat} (h : k < l.length) : cyc l k = l.getD k 0 := by
  unfold cyc
  rw [Int.emod_eq_of_lt (by omega) (by omega)]; simp

theorem mem_cyc {l : List Nat} {x : Nat} (h : x ∈ l) : ∃ k : Nat, k < l.length ∧ cyc l k = x := by
  obtain ⟨k, hk, rfl⟩ := List.getElem_of_mem h
  exact ⟨k, hk, by rw [cyc_nat hk]; simp [List.getD, hk]⟩

/-- What the fan says, with cyclic indices. -/
structure FanI (T : List Tri3) (p N : Nat) (v g : Int → Nat) : Prop where
  three : 3 ≤ N
  vinj : ∀ a b, v a = v b ↔ (N : Int) ∣ a - b
  ginj : ∀ a b, g a = g b ↔ (N : Int) ∣ a - b
  all : ∀ k, p ∈ cornersOf T k ↔ ∃ a, k = v a
  tri : ∀ a x, x ∈ cornersOf T (v a) ↔ x = p ∨ x = g a ∨ x = g (a + 1)
  ne : ∀ a, g a ≠ p

theorem cornersOf_nodup {T : List Tri3} (hT : ∀ t ∈ T, Proper t) (k : Nat) : (cornersOf T k).Nodup := by
  unfold cornersOf
  cases h : T[k]? with
  | none => simp
  | some t =>
    have := hT t (List.mem_of_getElem? h)
    obtain ⟨h1, h2, h3⟩ := this
    simp [corners, h1, h2, h3]

theorem Fan.toI {T : List Tri3} (hT : ∀ t ∈ T, Proper t) {p : Nat} {ts gs : List Nat} (h : Fan T p ts gs) : FanI T p ts.length (cyc ts) (cyc gs) := by
  have h3 := h.three
  have hl := h.len
  have key : ∀ a : Int, (cornersOf T (cyc ts a)).Perm [p, cyc gs a, cyc gs (a + 1)] := by
    intro a
    have ha := Int.emod_nonneg a (b := (ts.length : Int)) (by omega)
    have ha' := Int.emod_lt_of_pos a (b := (ts.length : Int)) (by omega)
    have := h.tri (a % ts.length).toNat (by omega)
    have e : (((a % ts.length).toNat + 1) % ts.length) = ((a + 1) % ts.length).toNat := by
      have : ((((a % ts.length).toNat + 1) % ts.length : Nat) : Int) = (a + 1) % ts.length := by
        push_cast
        rw [Int.toNat_of_nonneg ha, Int.emod_add_emod]
      omega
    rw [e] at this
    unfold cyc
    rw [hl]
    exact this
  refine ⟨h3, cyc_inj h.once (by omega), ?_, ?_, ?_, ?_⟩
  · intro a b; rw [← hl]; exact cyc_inj h.rim_once (by omega) a b
  · intro k
    rw [← h.all]
    constructor
    · intro hk; obtain ⟨a, _, e⟩ := mem_cyc hk; exact ⟨a, e.symm⟩
    · rintro ⟨a, rfl⟩; exact cyc_mem (by omega) a
  · intro a x
    rw [(key a).mem_iff]; simp
  · intro a he
    have := (key a).nodup_iff.1 (cornersOf_nodup hT _)
    simp only [List.nodup_cons, List.mem_cons] at this
    exact this.1 (Or.inl he.symm)

theorem FanI.shared {T : List Tri3} {p N : Nat} {v g : Int → Nat} (h : FanI T p N v g) (a : Int) (j : Nat) :
    (p ∈ cornersOf T j ∧ g a ∈ cornersOf T j) ↔ j = v a ∨ j = v (a - 1) := by
  have h3 := h.three
  constructor
  · rintro ⟨h1, h2⟩
    obtain ⟨b, rfl⟩ := (h.all j).1 h1
    rcases (h.tri b _).1 h2 with h2 | h2 | h2
    · exact absurd h2 (h.ne a)
    · left; exact (h.vinj _ _).2 (by have := (h.ginj _ _).1 h2; rwa [← Int.dvd_neg, neg_sub] at this)
    · right
      apply (h.vinj _ _).2
      have := (h.ginj _ _).1 h2
      rw [← Int.dvd_neg] at this
      have e : b - (a - 1) = -(a - (b + 1)) := by ring
      rw [e]; exact this
  · rintro (rfl | rfl)
    · exact ⟨(h.tri _ _).2 (Or.inl rfl), (h.tri _ _).2 (Or.inr (Or.inl rfl))⟩
    · refine ⟨(h.tri _ _).2 (Or.inl rfl), (h.tri _ _).2 (Or.inr (Or.inr ?_))⟩
      rw [show a - 1 + 1 = a by ring]

theorem FanI.v_ne {T : List Tri3} {p N : Nat} {v g : Int → Nat} (h : FanI T p N v g) (a : Int) : v a ≠ v (a + 1) := by
  intro hc
  have h3 := h.three
  have := dvd_small ((h.vinj _ _).1 hc) (by omega) (by omega)
  omega

/-- The triangles next to a triangle of the fan are the one before it and the one after it. -/
theorem FanI.across {T : List Tri3} {p N : Nat} {v g : Int → Nat} (h : FanI T p N v g) (a b : Nat) : Across T p a b ↔ ∃ k, (a = v k ∧ b = v (k + 1)) ∨ (a = v (k + 1) ∧ b = v k) := by
  constructor
  · rintro ⟨hne, x, hx, h1, h2, h3, h4⟩
    obtain ⟨i, rfl⟩ := (h.all a).1 h1
    have : ∃ j, x = g j := by
      rcases (h.tri i x).1 h3 with h3 | h3 | h3
      · exact absurd h3 hx
      · exact ⟨_, h3⟩
      · exact ⟨_, h3⟩
    obtain ⟨j, rfl⟩ := this
    have e : j - 1 + 1 = j := by ring
    rcases (h.shared j _).1 ⟨h1, h3⟩ with h5 | h5 <;> rcases (h.shared j _).1 ⟨h2, h4⟩ with h6 | h6
    · exact absurd (h5.trans h6.symm) hne
    · exact ⟨j - 1, Or.inr ⟨by rw [e]; exact h5, h6⟩⟩
    · exact ⟨j - 1, Or.inl ⟨h5, by rw [e]; exact h6⟩⟩
    · exact absurd (h5.trans h6.symm) hne
  · have key : ∀ k, Across T p (v k) (v (k + 1)) := by
      intro k
      have e : k + 1 - 1 = k := by ring
      have s1 := (h.shared (k + 1) (v k)).2 (Or.inr (by rw [e]))
      have s2 := (h.shared (k + 1) (v (k + 1))).2 (Or.inl rfl)
      exact ⟨h.v_ne k, g (k + 1), h.ne _, s1.1, s2.1, s1.2, s2.2⟩
    rintro ⟨k, ⟨rfl, rfl⟩ | ⟨rfl, rfl⟩⟩
    · exact key k
    · obtain ⟨h1, x, hx, a1, a2, a3, a4⟩ := key k
      exact ⟨Ne.symm h1, x, hx, a2, a1, a4, a3⟩

/-! ### The set of edges of a cell -/

/-- The order of `std::pair<int, int>`. -/
def elt (a b : Edge) : Prop := a.1 < b.1 ∨ (a.1 = b.1 ∧ a.2 < b.2)

theorem mem_setInsert {e x : Edge} : ∀ {m : List Edge}, x ∈ setInsert e m ↔ x = e ∨ x ∈ m
  | [] => by simp [setInsert]
  | y :: m => by
    unfold setInsert
    split
    · next h => subst h; simp
    · split
      · simp
      · simp only [List.mem_cons, mem_setInsert (m := m)]; tauto

theorem setInsert_sorted {e : Edge} : ∀ {m : List Edge}, m.Pairwise elt → (setInsert e m).Pairwise elt
  | [], _ => by simp [setInsert]
  | y :: m, h => by
    obtain ⟨h1, h2⟩ := List.pairwise_cons.1 h
    unfold setInsert
    split
    · exact h
    · next hne =>
      split
      · next hlt =>
        refine List.pairwise_cons.2 ⟨?_, h⟩
        intro z hz
        rcases List.mem_cons.1 hz with rfl | hz
        · exact hlt
        · have := h1 z hz; unfold elt at *; omega
      · next hlt =>
        refine List.pairwise_cons.2 ⟨?_, setInsert_sorted h2⟩
        intro z hz
        rcases mem_setInsert.1 hz with rfl | hz
        · obtain ⟨z1, z2⟩ := z
          obtain ⟨y1, y2⟩ := y
          simp only [elt, Prod.mk.injEq] at *
          omega
        · exact h1 z hz

theorem elt_nodup {m : List Edge} (h : m.Pairwise elt) : m.Nodup := by
  refine List.Pairwise.imp ?_ h
  rintro a b h rfl
  unfold elt at h; omega

theorem two_cases {l : List Nat} {k k' : Nat} (hn : l.Nodup) (hne : k ≠ k') (h : ∀ j, j ∈ l ↔ j = k ∨ j = k') : l = [k, k'] ∨ l = [k', k] := by
  have hp : l.Perm [k, k'] := by
    rw [List.perm_ext_iff_of_nodup hn (by simp [hne])]
    intro j; rw [h]; simp
  have hl := hp.length_eq
  match l, hl with
  | [x, y], _ =>
    simp only [List.mem_cons, List.not_mem_nil, or_false] at h
    have h1 := (h x).1 (Or.inl rfl)
    have h2 := (h y).1 (Or.inr rfl)
    simp only [List.nodup_cons, List.mem_singleton] at hn
    have h3 := hn.1
    rcases h1 with rfl | rfl <;> rcases h2 with rfl | rfl
    · exact absurd rfl h3
    · left; rfl
    · right; rfl
    · exact absurd rfl h3

variable {total len i : Nat} {K : List Nat} {T : List Tri3} {C : List P2} {s : TriS}

theorem Tab.K_inj (h : Tab total len i K T C s) {k k' : Nat} (hk : k < T.length) (hk' : k' < T.length) (he : K.getD k 0 = K.getD k' 0) : k = k' := by
  have hn : K.Nodup := h.Ksorted.imp (fun h => by omega)
  rw [← h.lenK] at hk hk'
  have e1 : K.getD k 0 = K[k] := by simp [List.getD, hk]
  have e2 : K.getD k' 0 = K[k'] := by simp [List.getD, hk']
  rw [e1, e2] at he
  exact (hn.getElem_inj_iff).1 he

theorem across_spec (dbg : Bool) (h : Tab total len i K T C s) {k k' : Nat} (hne : k ≠ k') {e : Edge} (hs : ∀ j, j ∈ inc T (fun t => decide (e ∈ ekeys t)) ↔ j = k ∨ j = k') (m : List Edge) :
    triAcross dbg s (K.getD k 0) k e m = .ok (setInsert (ekey k k') m) := by
  have hk : k < T.length := inc_lt ((hs k).2 (Or.inl rfl))
  have hk' : k' < T.length := inc_lt ((hs k').2 (Or.inr rfl))
  have hKne : K.getD k' 0 ≠ K.getD k 0 := fun hc => hne (h.K_inj hk' hk hc).symm
  have hid := h.id k' hk'
  have hnodes : s.nodes.length = T.length := by rw [h.nodes, h.lenC]
  have hd : s.dedge e = [K.getD k 0, K.getD k' 0] ∨ s.dedge e = [K.getD k' 0, K.getD k 0] := by
    rw [h.dedge]
    have hn : (inc T fun t => decide (e ∈ ekeys t)).Nodup := (inc_sorted _ _).imp (fun h => by omega)
    rcases two_cases hn hne hs with hl | hl <;> rw [hl]
    · left; rfl
    · right; rfl
  unfold triAcross
  have hrest : ∀ (m : List Edge), ((rd s.tri2id (K.getD k' 0)) >>= fun jj => (Res.assert dbg (0 ≤ jj ∧ jj < (s.nodes.length : Int)) >>= fun _ =>
      if jj ≠ (k : Int) then hashEdge dbg k jj >>= fun h => pure (setInsert h m) else pure m)) = .ok (setInsert (ekey k k') m) := by
    intro m
    rw [rd_eq_ok.2 hid, Res.ok_bind, Res.assert_true dbg (by omega), Res.ok_bind, if_pos (by omega), hashEdge_ne dbg hne, Res.ok_bind]
    rfl
  rcases hd with hd | hd
  · rw [hd, Res.assert_true dbg (by simp), Res.ok_bind]
    rw [show rd [K.getD k 0, K.getD k' 0] 0 = .ok (K.getD k 0) from rfl, Res.ok_bind, if_pos rfl, show rd [K.getD k 0, K.getD k' 0] 1 = .ok (K.getD k' 0) from rfl, Res.ok_bind]
    exact hrest m
  · rw [hd, Res.assert_true dbg (by simp), Res.ok_bind]
    rw [show rd [K.getD k' 0, K.getD k 0] 0 = .ok (K.getD k' 0) from rfl, Res.ok_bind, if_neg hKne, Res.ok_bind]
    exact hrest m

theorem otherTwo_spec (dbg : Bool) {t : Tri3} (ht : Proper t) {p : Nat} (hp : p ∈ corners t) : ∃ q r, otherTwo dbg t p = .ok (q, r) ∧ q ≠ p ∧ r ≠ p ∧ q ≠ r ∧ q ∈ corners t ∧ r ∈ corners t := by
  obtain ⟨a, b, c⟩ := t
  obtain ⟨h1, h2, h3⟩ := ht
  dsimp only at h1 h2 h3
  simp only [corners, List.mem_cons, List.not_mem_nil, or_false] at hp ⊢
  unfold otherTwo
  dsimp only
  rw [Res.assert_true dbg hp, Res.ok_bind, Res.assert_true dbg ⟨h1, h2, h3⟩, Res.ok_bind]
  by_cases ha : p = a
  · subst ha; exact ⟨b, c, by simp, by tauto, by tauto, h3, by tauto, by tauto⟩
  · by_cases hb : p = b
    · subst hb; exact ⟨a, c, by simp [ha], by tauto, by tauto, h2, by tauto, by tauto⟩
    · have : p = c := by tauto
      subst this
      exact ⟨a, b, by simp [ha, hb], by tauto, by tauto, h1, by tauto, by tauto⟩

theorem inc_edge {p g j : Nat} (hne : p ≠ g) : j ∈ inc T (fun t => decide (ekey p g ∈ ekeys t)) ↔ p ∈ cornersOf T j ∧ g ∈ cornersOf T j := by
  rw [mem_inc]
  unfold cornersOf
  cases h : T[j]? with
  | none => simp
  | some t => simp [mem_ekeys hne]

theorem edges_spec (dbg : Bool) (h : Tab total len i K T C s) (hT : ∀ t ∈ T, Proper t) {p N : Nat} {v g : Int → Nat} (hf : FanI T p N v g) :
    ∀ (ks : List Nat) (m : List Edge), (∀ k ∈ ks, p ∈ cornersOf T k) → m.Pairwise elt → ∃ m', triEdges dbg s p (ks.map fun k => K.getD k 0) m = .ok m' ∧ m'.Pairwise elt ∧
      ∀ e, e ∈ m' ↔ e ∈ m ∨ ∃ k ∈ ks, ∃ k', Across T p k k' ∧ e = ekey k k'
  | [], m, _, hm => ⟨m, rfl, hm, by simp⟩
  | k :: ks, m, hk, hm => by
    have hpk := hk k (by simp)
    obtain ⟨a, ha⟩ := (hf.all k).1 hpk
    have hex : ∃ t, T[k]? = some t := by
      unfold cornersOf at hpk
      cases h : T[k]? with
      | none => simp [h] at hpk
      | some t => exact ⟨t, rfl⟩
    obtain ⟨t, ht⟩ := hex
    have hkl : k < T.length := (List.getElem?_eq_some_iff.1 ht).1
    have hct : cornersOf T k = corners t := by simp [cornersOf, ht]
    obtain ⟨q, r, hqr, hq, hr, hqr', hqm, hrm⟩ := otherTwo_spec dbg (hT t (List.mem_of_getElem? ht)) (hct ▸ hpk)
    rw [← hct] at hqm hrm
    have hnodes : s.nodes.length = T.length := by rw [h.nodes, h.lenC]
    -- the triangle across a neighbour
    have nb : ∀ x, x ≠ p → x ∈ cornersOf T k → ∃ k', k ≠ k' ∧ Across T p k k' ∧ (∀ j, j ∈ inc T (fun t => decide (ekey p x ∈ ekeys t)) ↔ j = k ∨ j = k') := by
      intro x hx hxm
      have : ∃ j, x = g j := by
        rw [ha] at hxm
        rcases (hf.tri a x).1 hxm with h3 | h3 | h3
        · exact absurd h3 hx
        · exact ⟨_, h3⟩
        · exact ⟨_, h3⟩
      obtain ⟨j, rfl⟩ := this
      have hv := hf.v_ne (j - 1)
      rw [show j - 1 + 1 = j by ring] at hv
      have hall : ∀ i, i ∈ inc T (fun t => decide (ekey p (g j) ∈ ekeys t)) ↔ i = v j ∨ i = v (j - 1) := fun i => by
        rw [inc_edge (Ne.symm hx)]; exact hf.shared j i
      rcases (hf.shared j k).1 ⟨hpk, hxm⟩ with h5 | h5
      · refine ⟨v (j - 1), by rw [h5]; exact Ne.symm hv, (hf.across _ _).2 ⟨j - 1, Or.inr ⟨by rw [show j - 1 + 1 = j by ring]; exact h5, rfl⟩⟩, fun i => ?_⟩
        rw [hall, h5]
      · refine ⟨v j, by rw [h5]; exact hv, (hf.across _ _).2 ⟨j - 1, Or.inl ⟨h5, by rw [show j - 1 + 1 = j by ring]⟩⟩, fun i => ?_⟩
        rw [hall, h5, or_comm]
    obtain ⟨k1, n1, a1, s1⟩ := nb q hq hqm
    obtain ⟨k2, n2, a2, s2⟩ := nb r hr hrm
    -- these are all of them
    have hboth : ∀ k', Across T p k k' → k' = k1 ∨ k' = k2 := by
      rintro k' ⟨hne, x, hx, _, h2, h3, h4⟩
      have hx' : x = q ∨ x = r := by
        have := (cornersOf_nodup hT k)
        rw [hct] at this h3 hpk hqm hrm
        obtain ⟨b1, b2, b3⟩ := t
        simp only [corners, List.mem_cons, List.not_mem_nil, or_false] at *
        omega
      rcases hx' with rfl | rfl
      · left
        have := (s1 k').1 ((inc_edge (Ne.symm hx)).2 ⟨h2, h4⟩)
        tauto
      · right
        have := (s2 k').1 ((inc_edge (Ne.symm hx)).2 ⟨h2, h4⟩)
        tauto
    obtain ⟨m', e, hs, hm'⟩ := edges_spec dbg h hT hf ks (setInsert (ekey k k2) (setInsert (ekey k k1) m)) (fun k hk' => hk k (by simp [hk'])) (setInsert_sorted (setInsert_sorted hm))
    refine ⟨m', ?_, hs, ?_⟩
    · rw [List.map_cons]
      unfold triEdges
      rw [rd_eq_ok.2 (h.id k hkl), Res.ok_bind, Res.assert_true dbg (by omega), Res.ok_bind, rd_eq_ok.2 (h.gens k t ht), Res.ok_bind, hqr, Res.ok_bind,
        Res.assert_true dbg ⟨Ne.symm hq, Ne.symm hr⟩, Res.ok_bind, hashEdge_ne dbg (Ne.symm hq), Res.ok_bind, hashEdge_ne dbg (Ne.symm hr), Res.ok_bind,
        across_spec dbg h n1 s1, Res.ok_bind, across_spec dbg h n2 s2, Res.ok_bind]
      exact e
    · intro x
      rw [hm', mem_setInsert, mem_setInsert]
      constructor
      · rintro ((rfl | rfl | hx) | ⟨y, hy, z, hz, rfl⟩)
        · exact Or.inr ⟨k, by simp, k2, a2, rfl⟩
        · exact Or.inr ⟨k, by simp, k1, a1, rfl⟩
        · exact Or.inl hx
        · exact Or.inr ⟨y, by simp [hy], z, hz, rfl⟩
      · rintro (hx | ⟨y, hy, z, hz, rfl⟩)
        · exact Or.inl (Or.inr (Or.inr hx))
        · rcases List.mem_cons.1 hy with rfl | hy
          · rcases hboth z hz with rfl | rfl
            · exact Or.inl (Or.inr (Or.inl rfl))
            · exact Or.inl (Or.inl rfl)
          · exact Or.inr ⟨y, hy, z, hz, rfl⟩
end Verif.Tri
