import Verif.Proofs.TriLoop
import Verif.Proofs.Readout
/- All cells. -/
namespace Verif.Tri
open Verif Verif.Mesh Verif.Internal Verif.Geom Verif.Readout

theorem ends_low {m : List Edge} (hs : m.Pairwise elt) (hord : ∀ e ∈ m, e.1 < e.2) {f : Int → Nat} {q : Int → Nat} (h : Cyc m (fun a => (f a : Int)) q) (h0 : m[0]? = some ((f 0 : Int), (f 1 : Int))) :
    EndsLow ((List.range m.length).map fun j : Nat => f (j + 1)) := by
  have h3 := h.three
  have hmin : ∀ e ∈ m, (f 0 : Int) < e.1 ∨ ((f 0 : Int) = e.1 ∧ (f 1 : Int) ≤ e.2) := by
    match m, h0, hs with
    | e0 :: es, h0, hs =>
      simp only [List.getElem?_cons_zero, Option.some.injEq] at h0
      subst h0
      obtain ⟨h1, _⟩ := List.pairwise_cons.1 hs
      intro e he
      rcases List.mem_cons.1 he with rfl | he
      · right; simp
      · have := h1 e he; unfold elt at this; dsimp only at this; omega
  have hle : ∀ a, f 0 ≤ f a := by
    intro a
    obtain ⟨e, he, hj⟩ := h.edge a
    have hb := hmin e (List.mem_of_getElem? he)
    obtain ⟨e', he', hj'⟩ := h.edge (a - 1)
    have hb' := hmin e' (List.mem_of_getElem? he')
    have hc := hord e (List.mem_of_getElem? he)
    have hc' := hord e' (List.mem_of_getElem? he')
    rw [show a - 1 + 1 = a by ring] at hj'
    rcases hj with rfl | rfl <;> rcases hj' with rfl | rfl <;> dsimp only at hb hb' hc hc' <;> omega
  have hlast : f ((m.length : Int) - 1 + 1) = f 0 := by
    have := (h.vinj ((m.length : Int) - 1 + 1) 0).2 ⟨1, by ring⟩
    omega
  have hprev : f ((m.length : Int) - 2 + 1) = f (-1) := by
    have := (h.vinj ((m.length : Int) - 2 + 1) (-1)).2 ⟨1, by ring⟩
    omega
  have g1 : ((List.range m.length).map fun j : Nat => f (j + 1)).getD (m.length - 1) 0 = f 0 := by
    rw [← hlast]
    have : m.length - 1 < m.length := by omega
    simp [List.getD, this]
    congr 1; omega
  have g2 : ((List.range m.length).map fun j : Nat => f (j + 1)).getD (m.length - 2) 0 = f (-1) := by
    rw [← hprev]
    have : m.length - 2 < m.length := by omega
    simp [List.getD, this]
    congr 1; omega
  have g3 : ((List.range m.length).map fun j : Nat => f (j + 1)).getD 0 0 = f 1 := by
    have : 0 < m.length := by omega
    simp [List.getD, this]
  unfold EndsLow
  rw [List.length_map, List.length_range, g1, g2, g3]
  constructor
  · intro u hu
    obtain ⟨j, _, rfl⟩ := List.mem_map.1 hu
    exact hle _
  · obtain ⟨e, he, hj⟩ := h.edge (-1)
    have hb := hmin e (List.mem_of_getElem? he)
    have hc := hord e (List.mem_of_getElem? he)
    have hne : f (-1) ≠ f 1 := by
      intro hc
      have := dvd_small ((h.vinj (-1) 1).1 (by omega)) (by omega) (by omega)
      omega
    have hne0 : f (-1) ≠ f 0 := by
      have := h.v_succ_ne (-1)
      simp at this; exact this
    have := hle (-1)
    simp only [show (-1 : Int) + 1 = 0 by rfl] at hj
    rcases hj with rfl | rfl <;> dsimp only at hb hc <;> omega

theorem mem_gen {T : List Tri3} {p k : Nat} : k ∈ inc T (fun t => decide (p ∈ corners t)) ↔ p ∈ cornersOf T k := by
  rw [mem_inc]
  unfold cornersOf
  cases h : T[k]? with
  | none => simp
  | some t => simp

variable {total len i : Nat} {K : List Nat} {T : List Tri3} {C : List P2} {s : TriS}

/-- One cell: its edges, and its nodes in order. -/
theorem cell_spec (dbg : Bool) (h : Tab total len i K T C s) (hT : ∀ t ∈ T, Proper t) {p : Nat} (hp : p < total) {ts gs : List Nat} (hf : Fan T p ts gs) :
    ∃ l m us, rd s.gen2tri p = .ok l ∧ triEdges dbg s p l [] = .ok m ∧ sortedFaceNodes dbg m = .ok (us.map fun u : Nat => (u : Int)) ∧ (ts ~r us ∨ ts.reverse ~r us) ∧ EndsLow us := by
  have hI := hf.toI hT
  have h3 := hf.three
  obtain ⟨m, e, hs, hm⟩ := edges_spec dbg h hT hI (inc T fun t => decide (p ∈ corners t)) [] (fun k hk => mem_gen.1 hk) (by simp)
  have hm' : ∀ e, e ∈ m ↔ ∃ a b, Across T p a b ∧ e = ekey a b := by
    intro e
    rw [hm]
    simp only [List.not_mem_nil, false_or]
    constructor
    · rintro ⟨a, _, b, hab, rfl⟩; exact ⟨a, b, hab, rfl⟩
    · rintro ⟨a, b, hab, rfl⟩; exact ⟨a, mem_gen.2 hab.2.choose_spec.2.1, b, hab, rfl⟩
  have hord : ∀ e ∈ m, e.1 < e.2 := by
    intro e he
    obtain ⟨a, b, hab, rfl⟩ := (hm' e).1 he
    have := hab.1
    unfold ekey; split <;> dsimp only <;> omega
  obtain ⟨hl, q, hc⟩ := hI.cycle hs hm'
  obtain ⟨v', q', hc', hq0, h0, k, hk⟩ := cyc_normal hc
  obtain ⟨f, hf1, hf2⟩ : ∃ f : Int → Nat, (v' = fun a => (f a : Int)) ∧ ((∀ a, f a = cyc ts (k + a)) ∨ ∀ a, f a = cyc ts (k - a)) := by
    rcases hk with hk | hk
    · exact ⟨fun a => cyc ts (k + a), funext hk, Or.inl fun _ => rfl⟩
    · exact ⟨fun a => cyc ts (k - a), funext hk, Or.inr fun _ => rfl⟩
  subst hf1
  have hS := sorted_spec dbg hc' hq0 h0
  have hlow := ends_low hs hord hc' h0
  have hrot := rotated (l := ts) (by omega) hf2
  rw [hl] at hS hlow
  refine ⟨_, m, _, rd_lt (by rw [h.glen]; exact hp), ?_, ?_, hrot, hlow⟩
  · have : s.gen2tri[p]'(by rw [h.glen]; exact hp) = s.gen2tri.getD p [] := by simp [List.getD, h.glen, hp]
    rw [this, h.gen p hp]; exact e
  · rw [hS, List.map_map]; rfl

/-- The numbering of the edges: `rings` are the directed sides that each cell has so far. -/
structure Num (c : TriC) (rings : List (List (Int × Int))) : Prop where
  len : c.cells.length = rings.length
  cells : ∀ q, q < rings.length → (c.cells.getD q []).map (directed c.edges) = (rings.getD q []).map some
  numbers : Numbers c.emap c.edges
  fsts : c.emap.map Prod.fst = c.edges
  ends : ∀ e ∈ c.edges, e.1 < e.2 ∧ ∃ r ∈ rings, e ∈ r ∨ (e.2, e.1) ∈ r

theorem side_spec (dbg : Bool) {c : TriC} {rings : List (List (Int × Int))} (h : Num c rings) {p : Nat} (hp : p < rings.length) {ii jj : Int} (hne : ii ≠ jj) :
    ∃ c', triSide dbg p ii jj c = .ok c' ∧ Num c' (rings.set p (rings.getD p [] ++ [(ii, jj)])) := by
  have hpl : p < c.cells.length := by rw [h.len]; exact hp
  have hlen : c.emap.length = c.edges.length := by rw [← h.fsts]; simp
  have hcell : c.cells[p] = c.cells.getD p [] := by simp [List.getD, hpl]
  obtain ⟨e, he, heo, hej⟩ : ∃ e : Edge, hashEdge dbg ii jj = .ok e ∧ e.1 < e.2 ∧ ((e.1 = ii ∧ e.2 = jj) ∨ (e.1 = jj ∧ e.2 = ii)) := by
    refine ⟨if ii < jj then (ii, jj) else (jj, ii), ?_, ?_⟩
    · unfold hashEdge; rw [Res.assert_true dbg hne, Res.ok_bind]; rfl
    · split <;> simp <;> omega
  have hkey := addKey_list h.numbers h.fsts e
  have hex : ∀ (edges' : List Edge), (∃ l, edges' = c.edges ++ l) → edges'[(addKey e c.emap).1]? = some e →
      ∀ q, q < (rings.set p (rings.getD p [] ++ [(ii, jj)])).length →
      ((c.cells.set p (c.cells.getD p [] ++ [if e.1 = ii then ((addKey e c.emap).1 : Int) else flip (addKey e c.emap).1])).getD q []).map (directed edges') =
        ((rings.set p (rings.getD p [] ++ [(ii, jj)])).getD q []).map some := by
    rintro edges' ⟨l, rfl⟩ hid q hq
    rw [List.length_set] at hq
    have hold : ((c.cells.getD q []).map (directed (c.edges ++ l))) = (rings.getD q []).map some := by
      rw [← h.cells q hq]
      apply List.map_congr_left
      intro x hx
      have hx' : directed c.edges x ∈ (rings.getD q []).map some := by rw [← h.cells q hq]; exact List.mem_map_of_mem hx
      obtain ⟨y, _, hy⟩ := List.mem_map.1 hx'
      rw [← hy]; exact directed_keep hy.symm
    rw [getD_set hpl, getD_set hp]
    by_cases hqp : q = p
    · subst hqp
      rw [if_pos rfl, if_pos rfl, List.map_append, List.map_append, hold]
      congr 1
      simp only [List.map_cons, List.map_nil, List.cons.injEq, and_true]
      rcases hej with ⟨h1, h2⟩ | ⟨h1, h2⟩
      · rw [if_pos h1]
        simp only [directed, Int.natCast_nonneg, if_true, Int.toNat_natCast]
        rw [hid, ← h1, ← h2]
      · rw [if_neg (by omega)]
        unfold directed flip
        rw [if_neg (by omega)]
        have : (-(-((addKey e c.emap).1 : Int) - 1) - 1).toNat = (addKey e c.emap).1 := by omega
        rw [this, hid, ← h1, ← h2]; rfl
    · rw [if_neg hqp, if_neg hqp]; exact hold
  have hin : ∃ r ∈ rings.set p (rings.getD p [] ++ [(ii, jj)]), e ∈ r ∨ (e.2, e.1) ∈ r := by
    refine ⟨rings.getD p [] ++ [(ii, jj)], List.mem_set hp _, ?_⟩
    rcases hej with ⟨h1, h2⟩ | ⟨h1, h2⟩
    · left; simp [← h1, ← h2]
    · right; simp [← h1, ← h2]
  have hkeep : ∀ x ∈ c.edges, x.1 < x.2 ∧ ∃ r ∈ rings.set p (rings.getD p [] ++ [(ii, jj)]), x ∈ r ∨ (x.2, x.1) ∈ r := by
    intro x hx
    obtain ⟨h1, r, hr, h2⟩ := h.ends x hx
    refine ⟨h1, ?_⟩
    obtain ⟨q, hq, rfl⟩ := List.getElem_of_mem hr
    by_cases hqp : q = p
    · subst hqp
      refine ⟨rings.getD q [] ++ [(ii, jj)], List.mem_set hp _, ?_⟩
      have : rings[q] = rings.getD q [] := by simp [List.getD, hq]
      rw [← this]
      rcases h2 with h2 | h2
      · left; simp [h2]
      · right; simp [h2]
    · exact ⟨rings[q], List.mem_iff_getElem.2 ⟨q, by simpa using hq, by simp [List.getElem_set_ne (Ne.symm hqp)]⟩, h2⟩
  unfold triSide
  rw [Res.assert_true dbg hne, Res.ok_bind, he, Res.ok_bind, Res.assert_true dbg hej, Res.ok_bind]
  dsimp only
  rw [Res.assert_true dbg (by omega), Res.ok_bind, rd_lt hpl, Res.ok_bind, wr_lt hpl, Res.ok_bind, hcell]
  refine ⟨_, rfl, ?_⟩
  rcases hkey with ⟨k1, k2, k3, k4⟩ | ⟨k1, k2, k3⟩
  · rw [if_pos k1]
    refine ⟨by simp [h.len], ?_, k3, k4, ?_⟩
    · exact hex (c.edges ++ [e]) ⟨[e], rfl⟩ (by rw [k1, hlen]; simp)
    · intro x hx
      rcases List.mem_append.1 hx with hx | hx
      · exact hkeep x hx
      · rw [List.mem_singleton] at hx; subst hx; exact ⟨heo, hin⟩
  · rw [if_neg (by omega)]
    refine ⟨by simp [h.len], ?_, by rw [k2]; exact h.numbers, by rw [k2]; exact h.fsts, hkeep⟩
    exact hex c.edges ⟨[], by simp⟩ k3

theorem sides_spec (dbg : Bool) {p : Nat} : ∀ (l : List (Int × Int)) {c : TriC} {rings : List (List (Int × Int))}, Num c rings → p < rings.length → (∀ x ∈ l, x.1 ≠ x.2) →
    ∃ c', triSides dbg p l c = .ok c' ∧ Num c' (rings.set p (rings.getD p [] ++ l))
  | [], c, rings, h, hp, _ => by
    refine ⟨c, rfl, ?_⟩
    have : rings.set p (rings.getD p [] ++ []) = rings := by simp [List.getD, hp]
    rw [this]; exact h
  | x :: l, c, rings, h, hp, hl => by
    obtain ⟨c1, e1, h1⟩ := side_spec dbg h hp (hl x (by simp))
    obtain ⟨c2, e2, h2⟩ := sides_spec dbg l h1 (by simpa using hp) (fun y hy => hl y (by simp [hy]))
    refine ⟨c2, ?_, ?_⟩
    · unfold triSides; rw [e1, Res.ok_bind, e2]
    · rw [getD_set hp, if_pos rfl, List.set_set] at h2
      simpa using h2

/-- The sides of the cell with the nodes `us`. -/
def sidesOf (us : List Nat) : List (Int × Int) := cyclicPairs (us.map fun u : Nat => (u : Int))

theorem sidesOf_ne {us : List Nat} (hn : us.Nodup) (h2 : 2 ≤ us.length) : ∀ x ∈ sidesOf us, x.1 ≠ x.2 := by
  intro x hx
  obtain ⟨i, hi, rfl⟩ := List.getElem_of_mem hx
  simp only [sidesOf, cyclicPairs, List.length_zip, List.length_rotate, List.length_map, Nat.min_self] at hi
  simp only [sidesOf, cyclicPairs, List.getElem_zip, List.getElem_rotate, List.getElem_map, List.length_map]
  intro hc
  have := (hn.getElem_inj_iff).1 (Int.ofNat.inj hc)
  by_cases h : i + 1 < us.length
  · rw [Nat.mod_eq_of_lt h] at this; omega
  · have e : i + 1 = us.length := by omega
    rw [e, Nat.mod_self] at this; omega

theorem cells_spec (dbg : Bool) (h : Tab total len i K T C s) (hT : ∀ t ∈ T, Proper t) {n : Nat} (hn : n ≤ total) : ∀ (k p : Nat) {c : TriC} {rings : List (List (Int × Int))}, p + k = n → rings.length = n →
    Num c rings → (∀ q, p ≤ q → q < n → rings.getD q [] = []) → (∀ q, p ≤ q → q < n → ∃ ts gs, Fan T q ts gs) →
    ∃ c' rings', triCells dbg s p k c = .ok c' ∧ rings'.length = n ∧ Num c' rings' ∧ (∀ q, q < p → rings'.getD q [] = rings.getD q []) ∧
      ∀ q, p ≤ q → q < n → ∃ us, rings'.getD q [] = sidesOf us ∧ EndsLow us ∧ ∀ ts gs, Fan T q ts gs → (ts ~r us ∨ ts.reverse ~r us)
  | 0, p, c, rings, hp, hr, hN, _, _ => ⟨c, rings, rfl, hr, hN, fun _ _ => rfl, fun q h1 h2 => by omega⟩
  | k + 1, p, c, rings, hp, hr, hN, h0, hF => by
    obtain ⟨ts, gs, hf⟩ := hF p (by omega) (by omega)
    obtain ⟨l, m, us, e1, e2, e3, hrot, hlow⟩ := cell_spec dbg h hT (p := p) (by omega) hf
    have hus : us.length = ts.length ∧ us.Nodup := by
      rcases hrot with hr | hr
      · exact ⟨hr.perm.length_eq.symm, hr.perm.nodup_iff.1 hf.once⟩
      · exact ⟨by rw [← hr.perm.length_eq]; simp, hr.perm.nodup_iff.1 (List.nodup_reverse.2 hf.once)⟩
    have h3 := hf.three
    obtain ⟨c1, e4, hN1⟩ := sides_spec dbg (p := p) (sidesOf us) hN (by omega) (sidesOf_ne hus.2 (by omega))
    rw [h0 p (by omega) (by omega), List.nil_append] at hN1
    obtain ⟨c2, rings2, e5, hr2, hN2, hk, hq⟩ := cells_spec dbg h hT hn k (p + 1) (by omega) (by simpa using hr) hN1 (fun q h1 h2 => by rw [getD_set (by omega), if_neg (by omega)]; exact h0 q (by omega) h2)
      (fun q h1 h2 => hF q (by omega) h2)
    refine ⟨c2, rings2, ?_, hr2, hN2, ?_, ?_⟩
    · unfold triCells
      rw [e1, Res.ok_bind, e2, Res.ok_bind, e3, Res.ok_bind, Res.assert_true dbg (by simp; omega), Res.ok_bind]
      show (triSides dbg p (sidesOf us) c >>= _) = _
      rw [e4, Res.ok_bind, e5]
    · intro q h1
      rw [hk q (by omega), getD_set (by omega), if_neg (by omega)]
    · intro q h1 h2
      by_cases hqp : q = p
      · subst hqp
        refine ⟨us, ?_, hlow, ?_⟩
        · rw [hk q (by omega), getD_set (by omega), if_pos rfl]
        · intro ts' gs' hf'
          obtain ⟨l', m', us', e1', e2', e3', hrot', _⟩ := cell_spec dbg h hT (p := q) (by omega) hf'
          rw [e1] at e1'; cases e1'
          rw [e2] at e2'; cases e2'
          rw [e3] at e3'
          have : us = us' := by
            injection e3' with e3'
            exact List.map_injective_iff.2 (fun a b h => Int.ofNat.inj h) e3'
          rw [this]; exact hrot'
      · exact hq q (by omega) h2
end Verif.Tri
