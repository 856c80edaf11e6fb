import Verif.Spec.Bounded
import Verif.Model.Bounded
import Verif.Props.Readout
import Verif.Props.Voronoi
/- Clipping and filling for C73. -/
namespace Verif.Driver
open Verif Verif.Mesh Verif.Internal Verif.Geom Verif.Readout Verif.Snap

theorem openSides_eq : ∀ r : List P2, openSides r = ringSides r
  | [] => rfl
  | [_] => rfl
  | p :: q :: r => by
    unfold openSides; rw [openSides_eq (q :: r)]; rfl

theorem end_ring {r : List P2} {t : P2 × P2} (h : t ∈ openSides r) : t.1 ∈ r ∧ t.2 ∈ r := by
  rw [openSides_eq] at h
  exact ⟨(List.of_mem_zip h).1, List.mem_of_mem_tail (List.of_mem_zip h).2⟩

theorem ring_end : ∀ {r : List P2}, 1 < r.length → ∀ {p : P2}, p ∈ r → ∃ t ∈ openSides r, p = t.1 ∨ p = t.2
  | [], h, _, _ => by simp at h
  | [_], h, _, _ => by simp at h
  | [a, b], _, p, hp => ⟨(a, b), by simp [openSides], by simpa using hp⟩
  | a :: b :: c :: r, _, p, hp => by
    rcases List.mem_cons.1 hp with rfl | hp
    · exact ⟨(p, b), by simp [openSides], Or.inl rfl⟩
    · obtain ⟨t, h1, h2⟩ := ring_end (r := b :: c :: r) (by simp) hp
      exact ⟨t, by unfold openSides; exact List.mem_cons_of_mem _ h1, h2⟩

theorem isEnd_iff {rings : List (List P2)} (hr : ∀ r ∈ rings, 3 < r.length ∧ r.head? = r.getLast?) {p : P2} : IsEnd (allSides rings []) p ↔ ∃ r ∈ rings, p ∈ r := by
  unfold IsEnd allSides
  simp only [List.flatMap_nil, List.append_nil, List.mem_flatMap]
  constructor
  · rintro ⟨t, ⟨r, h1, h2⟩, h3⟩
    obtain ⟨a, b⟩ := end_ring h2
    rcases h3 with rfl | rfl
    · exact ⟨r, h1, a⟩
    · exact ⟨r, h1, b⟩
  · rintro ⟨r, h1, h2⟩
    obtain ⟨t, h3, h4⟩ := ring_end (by have := (hr r h1).1; omega) h2
    exact ⟨t, ⟨r, h1, h3⟩, h4⟩

theorem snaps_iff {rings : List (List P2)} (hr : ∀ r ∈ rings, 3 < r.length ∧ r.head? = r.getLast?) {f : P2 → P2} : Snaps f (allSides rings []) ↔ Merges f rings := by
  unfold Snaps Merges
  simp only [isEnd_iff hr]
  constructor
  · intro h r h1 p h2; exact h p ⟨r, h1, h2⟩
  · rintro h p ⟨r, h1, h2⟩; exact h r h1 p h2

/-- Clipping the cells one by one. -/
theorem clip_cells (boost : Boost) (dbg : Bool) {q : QT} {B : List P2} {H : List (List P2)} : ∀ {C : List (List Int)} {polys rings : List (List P2)} {i : Nat},
    List.Forall₂ (fun c poly => cellRing q c = .ok poly) C polys → List.Forall₂ (fun poly r => boost.inter poly B H = [r]) polys rings →
    (∀ (j : Nat) (r : List P2), rings[j]? = some r → ∃ g, q.generators[i + j]? = some g ∧ boost.contains r (g.x, g.y) = true) →
    (C.zipIdx i).mapM (clipOne boost dbg q B H) = .ok (rings.map fun r => (r, []))
  | [], [], [], _, .nil, .nil, _ => rfl
  | c :: C, poly :: polys, r :: rings, i, .cons h1 h1', .cons h2 h2', h3 => by
    obtain ⟨g, hg, hc⟩ := h3 0 r rfl
    rw [Nat.add_zero] at hg
    have ih := clip_cells boost dbg (i := i + 1) h1' h2' (fun j r' hj => by
      obtain ⟨g, a, b⟩ := h3 (j + 1) r' (by simpa using hj)
      exact ⟨g, by rw [← a]; congr 1; omega, b⟩)
    rw [List.zipIdx_cons, List.mapM_cons]
    have : clipOne boost dbg q B H (c, i) = .ok (r, []) := by
      unfold clipOne
      dsimp only
      rw [h1, Res.ok_bind, rd_eq_ok.2 hg, Res.ok_bind, h2]
      unfold choose
      simp only [List.length_singleton, lt_irrefl, if_false, false_imp_iff, Res.assert_true]
      rw [Res.ok_bind, rd_eq_ok.2 (show ([r] : List (List P2))[0]? = some r from rfl), Res.ok_bind, Res.assert_true dbg hc]; rfl
    rw [this, Res.ok_bind, ih]; rfl

theorem map_flatten {α β : Type} {F : α → β} {f : List P2 → List β} : ∀ {cells : List (List α)} {rings : List (List P2)}, cells.length = rings.length →
    (∀ (i : Nat) (r : List P2), rings[i]? = some r → (cells.getD i []).map F = f r) → cells.flatten.map F = rings.flatMap f
  | [], [], _, _ => rfl
  | [], _ :: _, h, _ => by simp at h
  | _ :: _, [], h, _ => by simp at h
  | c :: cells, r :: rings, hl, h => by
    have ih := map_flatten (cells := cells) (rings := rings) (by simpa using hl) fun i r' hr => by simpa using h (i + 1) r' (by simpa using hr)
    have h0 := h 0 r rfl
    simp only [List.getD_cons_zero] at h0
    rw [List.flatten_cons, List.map_append, ih, h0, List.flatMap_cons]

/-- The mesh that is filled from the clipped cells. -/
theorem clip_fill (dbg : Bool) {q : QT} {rings : List (List P2)} (hr : GoodRings rings) (hn : q.generators.length = rings.length) :
    ∃ (nodes : List P2) (edges : List (Int × Int)) (cells : List (List Int)) (f : P2 → P2) (m : Tess ℝ), clipCode dbg rings 0 [] = .ok (nodes, edges, cells) ∧ Merges f rings ∧
      fillTess dbg { q with nodes := nodes.map fun p => ⟨p.1, p.2, 0⟩, edges := edges, cellEdges := cells } {} = .ok m ∧ Consistent 2 m ∧ m.cells.length = rings.length ∧
      m.nodes = nodes.flatMap (fun p => [dequantize1 cmin2 cmax2 q.length q.xmin p.1, dequantize1 cmin2 cmax2 q.length q.ymin p.2]) ∧ (∀ p ∈ nodes, ∃ r ∈ rings, p ∈ r) ∧
      (∀ (i : Nat) (r : List P2), rings[i]? = some r → (Mesh.cell m i).map (fun s => (turned m s).map fun n => nodes[n]?) = (moved f r).map fun t => [some t.1, some t.2]) ∧
      (∃ e, e < m.faces.length ∧ (cellsOf m e).length = 1 ∧ face m e ≠ []) ∧
      (∀ p, Outer f rings p → ∃ n, nodes[n]? = some p ∧ ∃ e, e < m.faces.length ∧ (cellsOf m e).length = 1 ∧ n ∈ face m e) ∧
      ∀ n e, e < m.faces.length → (cellsOf m e).length = 1 → n ∈ face m e → ∃ p, nodes[n]? = some p ∧ Outer f rings p := by
  rcases C38_clip_partial dbg (rings := rings) (orphans := 0) (again := []) hr.closed (by simp) (fun _ => rfl) with ⟨_, hab0, hs⟩ | ⟨nodes, edges, cells, f, e, hnum, hin, hlen, hf, _, hends, hcell, huse, _⟩
  · exfalso
    cases hs with
    | ambiguous p q q' h1 h2 h3 w1 w2 w3 =>
      rw [isEnd_iff hr.closed] at h1 h2 h3
      obtain ⟨r, a, b⟩ := h1
      obtain ⟨r1, a1, b1⟩ := h2
      obtain ⟨r2, a2, b2⟩ := h3
      exact w3 (hr.clear r a p b r1 a1 q b1 r2 a2 q' b2 w1 w2)
    | thrice f a b hf hab h3 =>
      rw [snaps_iff hr.closed] at hf
      have hnd := hr.once f hf
      have e1 : rings.flatMap (moved f) = proper (((finalRings rings []).flatten).map fun t => (f t.1, f t.2)) := by
        unfold finalRings
        show _ = proper (List.map _ (rings.map openSides).flatten)
        clear hnd hf h3 hn hr hab0
        induction rings with
        | nil => rfl
        | cons r rings ih =>
          simp only [List.flatMap_cons, List.map_cons, List.flatten_cons, List.map_append, proper, List.filter_append] at ih ⊢
          rw [ih]; simp only [moved, openSides_eq, proper]
      rw [e1] at hnd
      generalize (finalRings rings []).flatten = l at hnd h3
      have c1 := List.nodup_iff_count_le_one.1 hnd (a, b)
      have c2 := List.nodup_iff_count_le_one.1 hnd (b, a)
      have key : ∀ l : List (P2 × P2), (l.filter fun t => decide ((f t.1, f t.2) = (a, b) ∨ (f t.1, f t.2) = (b, a))).length ≤
          (proper (l.map fun t => (f t.1, f t.2))).count (a, b) + (proper (l.map fun t => (f t.1, f t.2))).count (b, a) := by
        intro l
        induction l with
        | nil => simp
        | cons t l ih =>
          rw [List.filter_cons, List.map_cons, proper, List.filter_cons]
          by_cases h : (f t.1, f t.2) = (a, b) ∨ (f t.1, f t.2) = (b, a)
          · rw [if_pos (by simpa using h)]
            have hne : f t.1 ≠ f t.2 := by
              rcases h with h | h <;> (injection h with x y; rw [x, y]; first | exact hab | exact hab.symm)
            rw [if_pos (by simpa using hne)]
            have hab' : (a, b) ≠ (b, a) := by intro h; injection h with h; exact hab h
            rcases h with h | h <;> rw [h, List.length_cons, List.count_cons_self, List.count_cons_of_ne (by first | exact hab' | exact hab'.symm)] <;> (unfold proper at ih; omega)
          · rw [if_neg (by simpa using h)]
            refine ih.trans ?_
            split
            · exact Nat.add_le_add (List.count_le_count_cons) (List.count_le_count_cons)
            · exact le_refl _
      have := key l
      omega
  rw [snaps_iff hr.closed] at hf
  have hside : ∀ (i : Nat) (r : List P2), rings[i]? = some r → (cells.getD i []).map (side nodes edges) = (moved f r).map some := by
    intro i r hi
    have := (hcell i (openSides r) (by unfold finalRings; show (rings.map openSides)[i]? = _; rw [List.getElem?_map, hi]; rfl)).1
    rw [this]
    simp only [moved, openSides_eq]
  have hflat : cells.flatten.map (side nodes edges) = (rings.flatMap (moved f)).map some := by
    rw [map_flatten hlen hside, List.map_flatMap]
  have hcount : ∀ k, posID k < edges.length → cells.flatten.count k ≤ 1 := by
    intro k hk
    obtain ⟨h1, h2, hs⟩ := side_parts hnum.ends hk
    refine (List.count_le_count_map (f := side nodes edges) (x := k)).trans ?_
    rw [hflat, hs, List.count_map_of_injective _ _ (Option.some_injective _)]
    exact List.nodup_iff_count_le_one.1 (hr.once f hf) _
  set q' : QT := { q with nodes := nodes.map fun p => ⟨p.1, p.2, 0⟩, edges := edges, cellEdges := cells } with hq'
  have hok : QTOK q' := ⟨by show cells.length = q.generators.length; omega, hin.cells, fun ed hed => by
    have := hnum.ends ed hed
    have hl : q'.nodes.length = nodes.length := by simp [hq']
    rw [hl]; omega⟩
  have huse2 : ∀ e, e < q'.edges.length → (q'.cellEdges.flatten).count (e : Int) ≤ 1 ∧ (q'.cellEdges.flatten).count (flip e) ≤ 1 ∧ 1 ≤ (q'.cellEdges.flatten).count (e : Int) + (q'.cellEdges.flatten).count (flip e) := by
    intro e he
    have he : e < edges.length := he
    show cells.flatten.count (e : Int) ≤ 1 ∧ cells.flatten.count (flip e) ≤ 1 ∧ 1 ≤ cells.flatten.count (e : Int) + cells.flatten.count (flip e)
    refine ⟨hcount e (by rw [Readout.posID_eq_iff.mpr (Or.inl rfl)]; exact he), hcount (flip e) (by rw [Readout.posID_eq_iff (f := e) |>.mpr (Or.inr (by unfold flip; omega))]; exact he), ?_⟩
    obtain ⟨C, hC, hk⟩ := huse e he
    rcases hk with hk | hk
    · have : 0 < cells.flatten.count (e : Int) := List.count_pos_iff.mpr (List.mem_flatten.mpr ⟨C, hC, hk⟩)
      omega
    · have : 0 < cells.flatten.count (flip e) := List.count_pos_iff.mpr (List.mem_flatten.mpr ⟨C, hC, by
        have : flip (e : Int) = -(e : Int) - 1 := by unfold flip; omega
        rw [this]; exact hk⟩)
      omega
  obtain ⟨m, em, hc, hone⟩ := C39_uses dbg hok (fun e he => by have := huse2 e he; omega)
  obtain ⟨m', em', g1, g2, g3, g4, g5⟩ := fill_empty dbg hok
  rw [em] at em'; injection em' with em'; subst em'
  have hturn : ∀ k, posID k < edges.length → ∃ t, side nodes edges k = some t ∧ (turned m k).map (fun n => nodes[n]?) = [some t.1, some t.2] := by
    intro k hk
    obtain ⟨h1, h2, hs⟩ := side_parts hnum.ends hk
    refine ⟨_, hs, ?_⟩
    have hf : face m (posID k) = [edges[posID k].1.toNat, edges[posID k].2.toNat] := by
      unfold face; rw [g2]
      simp [List.getD, hq', hk]
    unfold turned
    rw [hf]
    split
    · simp [h1, h2]
    · simp [h1, h2]
  have hml : m.faces.length = edges.length := by rw [g2]; simp [hq']
  have hsplit : ∀ l : List Int, l.length = (l.filter fun s => decide (0 ≤ s)).length + (l.filter fun s => decide (s < 0)).length := by
    intro l
    induction l with
    | nil => rfl
    | cons a l ih =>
      simp only [List.filter_cons, List.length_cons]
      by_cases h0 : 0 ≤ a
      · rw [if_pos (by simpa using h0), if_neg (by simpa using h0)]; simp only [List.length_cons]; omega
      · rw [if_neg (by simpa using h0), if_pos (by simpa using (not_le.1 h0))]; simp only [List.length_cons]; omega
  have hpf : ∀ k : Int, posID (flip k) = posID k := by intro k; unfold posID flip; split <;> split <;> omega
  have hrv : ∀ k t, posID k < edges.length → side nodes edges k = some t → side nodes edges (flip k) = some (t.2, t.1) := by
    intro k t hkl hks
    obtain ⟨_, _, s1⟩ := side_parts hnum.ends hkl
    obtain ⟨_, _, s2⟩ := side_parts hnum.ends (k := flip k) (by rw [hpf]; exact hkl)
    rw [s1] at hks
    rw [s2]
    obtain rfl := Option.some.inj hks
    simp only [hpf]
    by_cases h0 : 0 ≤ k
    · rw [if_pos h0, if_neg (by unfold flip; omega)]
    · rw [if_neg h0, if_pos (by unfold flip; omega)]
  have hsum : ∀ k, posID k < edges.length → (cellsOf m (posID k)).length = cells.flatten.count k + cells.flatten.count (flip k) := by
    intro k hkl
    have hu := hone (posID k) (by rw [hml]; exact hkl)
    rw [hsplit, hu.1, hu.2]
    show cells.flatten.count ((posID k : Nat) : Int) + cells.flatten.count (flip (posID k : Nat)) = _
    rcases (Readout.posID_eq_iff (k := k) (f := posID k)).1 rfl with h | h
    · rw [← h]
    · have h' : flip ((posID k : Nat) : Int) = k := by unfold flip; omega
      have h'' : ((posID k : Nat) : Int) = flip k := by unfold flip at h' ⊢; omega
      rw [h', h'', Nat.add_comm]
  have hfk : ∀ k, posID k < edges.length → face m (posID k) = [edges[posID k]!.1.toNat, edges[posID k]!.2.toNat] := by
    intro k hkl; unfold face; rw [g2]; simp [List.getD, hq', hkl]
  have hmem : ∀ k, k ∈ cells.flatten ↔ ∃ t ∈ rings.flatMap (moved f), side nodes edges k = some t ∧ posID k < edges.length := by
    intro k
    constructor
    · intro hk
      obtain ⟨C, hC, hkC⟩ := List.mem_flatten.1 hk
      have hkl := hin.cells C hC k hkC
      obtain ⟨_, _, s1⟩ := side_parts hnum.ends hkl
      have : side nodes edges k ∈ cells.flatten.map (side nodes edges) := List.mem_map_of_mem hk
      rw [hflat] at this
      obtain ⟨x, hx, hxe⟩ := List.mem_map.1 this
      exact ⟨x, hx, hxe.symm, hkl⟩
    · rintro ⟨t, ht, hs, hkl⟩
      have : some t ∈ cells.flatten.map (side nodes edges) := by rw [hflat]; exact List.mem_map_of_mem ht
      obtain ⟨k', hk', hs'⟩ := List.mem_map.1 this
      obtain ⟨C, hC, hkC⟩ := List.mem_flatten.1 hk'
      have := (side_inj hnum (hin.cells C hC k' hkC) hkl).1 (hs'.trans hs.symm)
      rwa [← this]
  have out_face : ∀ k t, k ∈ cells.flatten → side nodes edges k = some t → (t.2, t.1) ∉ rings.flatMap (moved f) → (cellsOf m (posID k)).length = 1 := by
    intro k t hk hs hrev
    obtain ⟨t', _, hs', hkl⟩ := (hmem k).1 hk
    rw [hsum k hkl]
    have h1 := hcount k hkl
    have h2 : 0 < cells.flatten.count k := List.count_pos_iff.2 hk
    have h3 : cells.flatten.count (flip k) = 0 := by
      rw [List.count_eq_zero]
      intro hm
      obtain ⟨t2, ht2, hs2, _⟩ := (hmem _).1 hm
      rw [hrv k t hkl hs] at hs2
      obtain rfl := Option.some.inj hs2
      exact hrev ht2
    omega
  have hnode : ∀ k t, posID k < edges.length → side nodes edges k = some t → ∃ a b, face m (posID k) = (if 0 ≤ k then [a, b] else [b, a]) ∧ nodes[a]? = some t.1 ∧ nodes[b]? = some t.2 := by
    intro k t hkl hs
    obtain ⟨h1, h2, s1⟩ := side_parts hnum.ends hkl
    rw [s1] at hs
    obtain rfl := Option.some.inj hs
    rw [hfk k hkl]
    simp only [getElem!_pos, hkl]
    by_cases h0 : 0 ≤ k
    · simp only [if_pos h0]
      exact ⟨_, _, rfl, List.getElem?_eq_getElem h1, List.getElem?_eq_getElem h2⟩
    · simp only [if_neg h0]
      exact ⟨_, _, rfl, List.getElem?_eq_getElem h2, List.getElem?_eq_getElem h1⟩
  have find : ∀ t ∈ rings.flatMap (moved f), ∃ k ∈ cells.flatten, side nodes edges k = some t := by
    intro t ht
    have : some t ∈ cells.flatten.map (side nodes edges) := by rw [hflat]; exact List.mem_map_of_mem ht
    obtain ⟨k, hk, hs⟩ := List.mem_map.1 this
    exact ⟨k, hk, hs⟩
  refine ⟨nodes, edges, cells, f, m, by rw [clipCode_eq]; exact e, hf, em, hc, by rw [g1]; exact hlen, ?_, ?_, ?_, ?_, ?_, ?_⟩
  · rw [g3, hq']
    simp only [List.flatMap_map]
  · intro p hp; exact (isEnd_iff hr.closed).1 (hends p hp)
  · intro i r hi
    have hcm : Mesh.cell m i = cells.getD i [] := by unfold Mesh.cell; rw [g1]
    have hs := hside i r hi
    have hil : i < cells.length := by rw [hlen]; exact (List.getElem?_eq_some_iff.1 hi).1
    have hlt : ∀ k ∈ cells.getD i [], posID k < edges.length := fun k hk => hin.cells _ (by
      rw [show cells.getD i [] = cells[i] by simp [List.getD, hil]]; exact List.getElem_mem hil) k hk
    rw [hcm]
    generalize cells.getD i [] = c at hs hlt
    generalize moved f r = w at hs
    clear hcm
    induction c generalizing w with
    | nil => cases w with
      | nil => rfl
      | cons a b => simp at hs
    | cons k c ih => cases w with
      | nil => simp at hs
      | cons t w =>
        simp only [List.map_cons, List.cons.injEq] at hs ⊢
        obtain ⟨t', h1, h2⟩ := hturn k (hlt k (List.mem_cons_self ..))
        rw [h1] at hs
        obtain rfl := Option.some.inj hs.1
        exact ⟨h2, ih (fun k' hk' => hlt k' (List.mem_cons_of_mem _ hk')) _ hs.2⟩
  · obtain ⟨t, ht, hrev⟩ := hr.outer f hf
    obtain ⟨k, hk, hs⟩ := find t ht
    obtain ⟨_, _, _, hkl⟩ := (hmem k).1 hk
    exact ⟨posID k, by rw [hml]; exact hkl, out_face k t hk hs hrev, by rw [hfk k hkl]; simp⟩
  · rintro p ⟨t, ht, hrev, hp⟩
    obtain ⟨k, hk, hs⟩ := find t ht
    obtain ⟨_, _, _, hkl⟩ := (hmem k).1 hk
    obtain ⟨a, b, hf1, ha, hb⟩ := hnode k t hkl hs
    have hab : a ∈ face m (posID k) ∧ b ∈ face m (posID k) := by rw [hf1]; split <;> simp
    rcases hp with rfl | rfl
    · exact ⟨a, ha, posID k, by rw [hml]; exact hkl, out_face k t hk hs hrev, hab.1⟩
    · exact ⟨b, hb, posID k, by rw [hml]; exact hkl, out_face k t hk hs hrev, hab.2⟩
  · intro n e he h1 hne
    rw [hml] at he
    have hpe : posID (e : Int) = e := by unfold posID; simp
    have hs1 := hsum (e : Int) (by rw [hpe]; exact he)
    rw [hpe, h1] at hs1
    obtain ⟨k, hk, hpk, hk0⟩ : ∃ k, k ∈ cells.flatten ∧ posID k = e ∧ flip k ∉ cells.flatten := by
      by_cases h0 : cells.flatten.count (e : Int) = 0
      · refine ⟨flip e, List.count_pos_iff.1 (by omega), by rw [hpf, hpe], ?_⟩
        rw [show flip (flip (e : Int)) = (e : Int) by unfold flip; omega]
        exact List.count_eq_zero.1 h0
      · exact ⟨e, List.count_pos_iff.1 (by omega), hpe, List.count_eq_zero.1 (by omega)⟩
    obtain ⟨t, ht, hs, hkl⟩ := (hmem k).1 hk
    have hrev : (t.2, t.1) ∉ rings.flatMap (moved f) := fun h => hk0 ((hmem _).2 ⟨_, h, hrv k t hkl hs, by rw [hpf]; exact hkl⟩)
    obtain ⟨a, b, hf1, ha, hb⟩ := hnode k t hkl hs
    rw [← hpk, hf1] at hne
    have : n = a ∨ n = b := by
      split at hne <;> simp only [List.mem_cons, List.not_mem_nil, or_false] at hne <;> tauto
    rcases this with rfl | rfl
    · exact ⟨t.1, ha, t, ht, hrev, Or.inl rfl⟩
    · exact ⟨t.2, hb, t, ht, hrev, Or.inr rfl⟩

end Verif.Driver
