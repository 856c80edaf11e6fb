import Verif.Model.Snap
import Verif.Spec.Snap
import Verif.Props.Query
import Verif.Props.Box
import Verif.Proofs.Convex
/- C41: snapping boundary nodes to the boundary. -/
namespace Verif.Snap
open Verif Verif.Mesh Verif.Geom
open scoped Classical

theorem wrV2_ok {nodes : List ℝ} {i : Nat} (p : V2 ℝ) (h : i < nodes.length / 2) :
    ∃ nodes', wrV2 nodes i p = .ok nodes' ∧ nodes'.length = nodes.length ∧ vtx nodes' (i : Int) = p ∧ ∀ j : Nat, j ≠ i → vtx nodes' (j : Int) = vtx nodes (j : Int) := by
  refine ⟨(nodes.set (2 * i) p.x).set (2 * i + 1) p.y, ?_, by simp, ?_, ?_⟩
  · unfold wrV2
    rw [wr_lt (by omega), Res.ok_bind, wr_lt (by rw [List.length_set]; omega)]
  · unfold vtx
    simp only [Int.toNat_natCast, List.getD_eq_getElem?_getD]
    ext
    · simp only
      rw [List.getElem?_set_ne (by omega), List.getElem?_set_self (by omega)]; rfl
    · simp only
      rw [List.getElem?_set_self (by rw [List.length_set]; omega)]; rfl
  · intro j hj
    unfold vtx
    simp only [Int.toNat_natCast, List.getD_eq_getElem?_getD]
    rw [List.getElem?_set_ne (by omega), List.getElem?_set_ne (by omega), List.getElem?_set_ne (by omega), List.getElem?_set_ne (by omega)]

theorem scan_spec (tol : ℝ) {nodes : List ℝ} (p : V2 ℝ) : ∀ (ns : List Nat) (d : ℝ) (i : Option Nat), (∀ n ∈ ns, n < nodes.length / 2) →
    ∃ d' i', scan tol nodes p ns d i = .ok (d', i') ∧
      (d' < tol → (d < tol) ∨ ∃ n ∈ ns, i' = some n ∧ dist2 (vtx nodes (n : Int)) p = d') ∧
      (¬ d' < tol → (∀ n ∈ ns, dist2 (vtx nodes (n : Int)) p ≠ tol) → tol < d → ∀ n ∈ ns, ¬ dist2 (vtx nodes (n : Int)) p < tol)
  | [], d, i, _ => ⟨d, i, rfl, fun h => Or.inl h, by simp⟩
  | n :: ns, d, i, h => by
    unfold scan
    by_cases hd : tol < d
    · rw [if_pos hd, rdV2_vtx (h n (by simp)), Res.ok_bind, distance2_eq]
      obtain ⟨d', i', e, h1, h2⟩ := scan_spec tol p ns (dist2 (vtx nodes (n : Int)) p) (some n) (fun m hm => h m (by simp [hm]))
      refine ⟨d', i', e, fun hlt => ?_, fun hge hne hd m hm => ?_⟩
      · by_cases hn : dist2 (vtx nodes (n : Int)) p < tol
        · have : scan tol nodes p ns (dist2 (vtx nodes (n : Int)) p) (some n) = .ok (dist2 (vtx nodes (n : Int)) p, some n) := by
            cases ns with
            | nil => rfl
            | cons a l => unfold scan; rw [if_neg (not_lt.mpr hn.le)]
          rw [this] at e
          cases e
          exact Or.inr ⟨n, by simp, rfl, rfl⟩
        · rcases h1 hlt with h1 | ⟨m, hm, a, b⟩
          · exact absurd h1 hn
          · exact Or.inr ⟨m, by simp [hm], a, b⟩
      · by_cases hn : tol < dist2 (vtx nodes (n : Int)) p
        · rcases List.mem_cons.mp hm with rfl | hm
          · exact not_lt.mpr hn.le
          · exact h2 hge (fun k hk => hne k (by simp [hk])) hn m hm
        · have hlt : dist2 (vtx nodes (n : Int)) p < tol := lt_of_le_of_ne (not_lt.mp hn) (hne n (by simp))
          have : scan tol nodes p ns (dist2 (vtx nodes (n : Int)) p) (some n) = .ok (dist2 (vtx nodes (n : Int)) p, some n) := by
            cases ns with
            | nil => rfl
            | cons a l => unfold scan; rw [if_neg (not_lt.mpr hlt.le)]
          rw [this] at e
          cases e
          exact absurd hlt hge
    · rw [if_neg hd]
      exact ⟨d, i, rfl, fun h => Or.inl h, fun _ _ h => absurd h hd⟩

/-- What holds after the PLC points `done` have been processed. -/
structure Inv (tol : ℝ) (nodes : List ℝ) (b0 : List Nat) (verts : List ℝ) (done : List Nat) (st : State) : Prop where
  length : st.nodes.length = nodes.length
  bset : ∀ i, i ∈ st.bset ↔ i ∈ b0 ∧ i ∉ st.claims.map Prod.snd
  bnodup : st.bset.Nodup
  near : ∀ c ∈ st.claims, c.1 ∈ done ∧ c.2 ∈ b0 ∧ dist2 (vtx nodes (c.2 : Int)) (vtx verts (c.1 : Int)) < tol ∧ vtx st.nodes (c.2 : Int) = vtx verts (c.1 : Int)
  nodup2 : (st.claims.map Prod.snd).Nodup
  nodup1 : (st.claims.map Prod.fst).Nodup
  same : ∀ i : Nat, i ∉ st.claims.map Prod.snd → vtx st.nodes (i : Int) = vtx nodes (i : Int)
  all : ∀ v ∈ done, v ∈ st.claims.map Prod.fst ∨ v ∈ st.left
  left : ∀ v ∈ st.left, v ∈ done ∧ v ∉ st.claims.map Prod.fst ∧ ((∀ i ∈ b0, dist2 (vtx nodes (i : Int)) (vtx verts (v : Int)) ≠ tol) →
    ∀ i ∈ b0, dist2 (vtx nodes (i : Int)) (vtx verts (v : Int)) < tol → i ∈ st.claims.map Prod.snd)

theorem vertexStep_inv {big tol : ℝ} (hbig : tol < big) {nodes : List ℝ} {b0 : List Nat} (hb0 : ∀ i ∈ b0, i < nodes.length / 2) {verts : List ℝ} {done : List Nat} {st : State}
    (h : Inv tol nodes b0 verts done st) {v : Nat} (hv : v < verts.length / 2) (hnew : v ∉ done) :
    ∃ st', vertexStep big tol verts st v = .ok st' ∧ Inv tol nodes b0 verts (done ++ [v]) st' := by
  have hvc : v ∉ st.claims.map Prod.fst := by
    intro hm
    obtain ⟨c, hc, rfl⟩ := List.mem_map.mp hm
    exact hnew (h.near c hc).1
  have hrange : ∀ n ∈ st.bset, n < st.nodes.length / 2 := fun n hn => by rw [h.length]; exact hb0 n ((h.bset n).mp hn).1
  have hsame : ∀ n ∈ st.bset, vtx st.nodes (n : Int) = vtx nodes (n : Int) := fun n hn => h.same n ((h.bset n).mp hn).2
  obtain ⟨d', i', e, h1, h2⟩ := scan_spec tol (vtx verts (v : Int)) st.bset big none hrange
  unfold vertexStep
  rw [rdV2_vtx hv, Res.ok_bind, e, Res.ok_bind]
  by_cases hd : d' < tol
  · rw [if_pos hd]
    rcases h1 hd with h1 | ⟨i, hi, rfl, hdist⟩
    · exact absurd (lt_trans hbig h1) (lt_irrefl _)
    obtain ⟨nodes', w1, w2, w3, w4⟩ := wrV2_ok (vtx verts (v : Int)) (hrange i hi)
    dsimp only
    rw [w1, Res.ok_bind]
    have hi0 := (h.bset i).mp hi
    rw [hsame i hi] at hdist
    refine ⟨_, rfl, ⟨w2.trans h.length, ?_, h.bnodup.filter _, ?_, ?_, ?_, ?_, ?_, ?_⟩⟩
    · intro j
      simp only [List.mem_filter, h.bset j, List.map_append, List.map_cons, List.map_nil, List.mem_append, List.mem_singleton, decide_eq_true_eq, ne_eq, not_or]
      tauto
    · intro c hc
      rcases List.mem_append.mp hc with hc | hc
      · obtain ⟨a1, a2, a3, a4⟩ := h.near c hc
        refine ⟨by simp [a1], a2, a3, ?_⟩
        rw [w4 c.2 (fun he => hi0.2 (he ▸ List.mem_map_of_mem hc)), a4]
      · rw [List.mem_singleton.mp hc]
        exact ⟨by simp, hi0.1, by rw [hdist]; exact hd, w3⟩
    · simp only [List.map_append, List.map_cons, List.map_nil]
      rw [List.nodup_append]
      exact ⟨h.nodup2, by simp, fun a ha b hb hab => by rw [List.mem_singleton.mp hb] at hab; exact hi0.2 (hab ▸ ha)⟩
    · simp only [List.map_append, List.map_cons, List.map_nil]
      rw [List.nodup_append]
      exact ⟨h.nodup1, by simp, fun a ha b hb hab => by rw [List.mem_singleton.mp hb] at hab; exact hvc (hab ▸ ha)⟩
    · intro j hj
      simp only [List.map_append, List.map_cons, List.map_nil, List.mem_append, List.mem_singleton, not_or] at hj
      dsimp only
      rw [w4 j hj.2, h.same j hj.1]
    · intro w hw
      rcases List.mem_append.mp hw with hw | hw
      · rcases h.all w hw with h' | h'
        · exact Or.inl (by simp only [List.map_append, List.mem_append]; exact Or.inl h')
        · exact Or.inr h'
      · exact Or.inl (by rw [List.mem_singleton.mp hw]; simp)
    · intro w hw
      obtain ⟨b1, b2, b3⟩ := h.left w hw
      refine ⟨by simp [b1], ?_, fun ht j hj hlt => ?_⟩
      · simp only [List.map_append, List.map_cons, List.map_nil, List.mem_append, List.mem_singleton, not_or]
        exact ⟨b2, fun he => hnew (he ▸ b1)⟩
      · simp only [List.map_append, List.mem_append]
        exact Or.inl (b3 ht j hj hlt)
  · rw [if_neg hd]
    refine ⟨_, rfl, ⟨h.length, h.bset, h.bnodup, fun c hc => ?_, h.nodup2, h.nodup1, h.same, ?_, ?_⟩⟩
    · obtain ⟨a1, a2⟩ := h.near c hc
      exact ⟨by simp [a1], a2⟩
    · intro w hw
      rcases List.mem_append.mp hw with hw | hw
      · rcases h.all w hw with h' | h'
        · exact Or.inl h'
        · exact Or.inr (by simp [h'])
      · exact Or.inr (by rw [List.mem_singleton.mp hw]; simp)
    · intro w hw
      rcases List.mem_append.mp hw with hw | hw
      · obtain ⟨b1, b2, b3⟩ := h.left w hw
        exact ⟨by simp [b1], b2, b3⟩
      · rw [List.mem_singleton.mp hw]
        refine ⟨by simp, hvc, fun ht j hj hlt => ?_⟩
        by_contra hcl
        have hjb : j ∈ st.bset := (h.bset j).mpr ⟨hj, hcl⟩
        refine h2 hd (fun n hn => ?_) hbig j hjb ?_
        · rw [hsame n hn]; exact ht n ((h.bset n).mp hn).1
        · rw [hsame j hjb]; exact hlt

theorem vertices_inv {big tol : ℝ} (hbig : tol < big) {nodes : List ℝ} {b0 : List Nat} (hb0 : ∀ i ∈ b0, i < nodes.length / 2) {verts : List ℝ} : ∀ (vs done : List Nat) {st : State},
    Inv tol nodes b0 verts done st → (∀ v ∈ vs, v < verts.length / 2) → vs.Nodup → (∀ v ∈ vs, v ∉ done) →
    ∃ st', vs.foldlM (vertexStep big tol verts) st = .ok st' ∧ Inv tol nodes b0 verts (done ++ vs) st'
  | [], done, st, h, _, _, _ => ⟨st, rfl, by simpa using h⟩
  | v :: vs, done, st, h, h1, h2, h3 => by
    obtain ⟨st1, e1, i1⟩ := vertexStep_inv hbig hb0 h (h1 v (by simp)) (h3 v (by simp))
    obtain ⟨n1, n2⟩ := List.nodup_cons.mp h2
    obtain ⟨st2, e2, i2⟩ := vertices_inv hbig hb0 vs (done ++ [v]) i1 (fun w hw => h1 w (by simp [hw])) n2 (fun w hw => by
      simp only [List.mem_append, List.mem_singleton, not_or]
      exact ⟨h3 w (by simp [hw]), fun he => n1 (he ▸ hw)⟩)
    refine ⟨st2, ?_, by simpa using i2⟩
    rw [List.foldlM_cons, e1, Res.ok_bind, e2]

/-- One boundary node that no PLC point took. -/
theorem restStep_ok {dbg : Bool} {big tol : ℝ} {verts : List ℝ} {plc : PLC} (hg : GoodFacets (verts.length / 2) verts (allFacets plc)) {nodes : List ℝ} {i : Nat} (hi : i < nodes.length / 2)
    (hb : ∃ q, OnPLC verts plc q ∧ dist2 (vtx nodes (i : Int)) q + 1 / 2 * (1 / 10 ^ 10) < big) :
    ∃ d r, nearestPoint dbg big (verts.length / 2) verts (vtx nodes (i : Int)) plc = .ok (d, some r) ∧ d = dist2 (vtx nodes (i : Int)) r ∧ OnPLC verts plc r ∧
      (∀ q, OnPLC verts plc q → d ≤ dist2 (vtx nodes (i : Int)) q + 1 / 2 * (1 / 10 ^ 10)) ∧
      (d < tol → ∃ nodes', restStep dbg big tol verts plc nodes i = .ok nodes' ∧ nodes'.length = nodes.length ∧ vtx nodes' (i : Int) = r ∧ ∀ j : Nat, j ≠ i → vtx nodes' (j : Int) = vtx nodes (j : Int)) ∧
      (¬ d < tol → restStep dbg big tol verts plc nodes i = if dbg then .abort else .ok nodes) := by
  obtain ⟨d, r, e, h1, h2, h3, _⟩ := C29_nearestPoint (dbg := dbg) hg hb
  refine ⟨d, r, e, h1, h2, h3, fun hd => ?_, fun hd => ?_⟩
  · obtain ⟨nodes', w1, w2, w3, w4⟩ := wrV2_ok r hi
    refine ⟨nodes', ?_, w2, w3, w4⟩
    unfold restStep
    rw [rdV2_vtx hi, Res.ok_bind, e, Res.ok_bind]
    dsimp only
    rw [if_neg (not_le.mpr hd), Option.getD_some, w1, Res.ok_bind, Res.assert_true dbg hd]; rfl
  · unfold restStep
    rw [rdV2_vtx hi, Res.ok_bind, e, Res.ok_bind]
    dsimp only
    rw [if_pos (not_lt.mp hd), Res.ok_bind]
    cases dbg with
    | false => rw [Res.assert_release]; rfl
    | true => rw [Res.assert_debug_false hd]; rfl

/-- The second loop. `moved` says how each of the remaining boundary nodes ends. -/
theorem rest_ok {dbg : Bool} {big tol : ℝ} {verts : List ℝ} {plc : PLC} (hg : GoodFacets (verts.length / 2) verts (allFacets plc)) :
    ∀ (is : List Nat) (nodes : List ℝ), is.Nodup → (∀ i ∈ is, i < nodes.length / 2) → (∀ i ∈ is, ∃ q, OnPLC verts plc q ∧ dist2 (vtx nodes (i : Int)) q + 1 / 2 * (1 / 10 ^ 10) < big) →
      (dbg = true ∧ is.foldlM (restStep dbg big tol verts plc) nodes = .abort ∧ ∃ i ∈ is, ∀ q, OnPLC verts plc q → tol ≤ dist2 (vtx nodes (i : Int)) q + 1 / 2 * (1 / 10 ^ 10)) ∨
      ∃ nodes', is.foldlM (restStep dbg big tol verts plc) nodes = .ok nodes' ∧ nodes'.length = nodes.length ∧ (∀ j : Nat, j ∉ is → vtx nodes' (j : Int) = vtx nodes (j : Int)) ∧
        ∀ i ∈ is, (OnPLC verts plc (vtx nodes' (i : Int)) ∧ dist2 (vtx nodes (i : Int)) (vtx nodes' (i : Int)) < tol) ∨
          (dbg = false ∧ vtx nodes' (i : Int) = vtx nodes (i : Int) ∧ ∀ q, OnPLC verts plc q → tol ≤ dist2 (vtx nodes (i : Int)) q + 1 / 2 * (1 / 10 ^ 10))
  | [], nodes, _, _, _ => Or.inr ⟨nodes, rfl, rfl, fun _ _ => rfl, by simp⟩
  | i :: is, nodes, hn, hr, hb => by
    obtain ⟨n1, n2⟩ := List.nodup_cons.mp hn
    obtain ⟨d, r, e, e1, e2, e3, e4, e5⟩ := restStep_ok (dbg := dbg) (tol := tol) hg (hr i (by simp)) (hb i (by simp))
    by_cases hd : d < tol
    · obtain ⟨nodes1, w1, w2, w3, w4⟩ := e4 hd
      have hne : ∀ j ∈ is, vtx nodes1 (j : Int) = vtx nodes (j : Int) := fun j hj => w4 j (fun he => n1 (he ▸ hj))
      rcases rest_ok (dbg := dbg) (tol := tol) hg is nodes1 n2 (fun j hj => by rw [w2]; exact hr j (by simp [hj])) (fun j hj => by rw [hne j hj]; exact hb j (by simp [hj])) with ⟨a1, a2, j, a3, a4⟩ | ⟨nodes', a1, a2, a3, a4⟩
      · refine Or.inl ⟨a1, ?_, j, by simp [a3], fun q hq => by rw [← hne j a3]; exact a4 q hq⟩
        rw [List.foldlM_cons, w1, Res.ok_bind, a2]
      · refine Or.inr ⟨nodes', by rw [List.foldlM_cons, w1, Res.ok_bind, a1], a2.trans w2, fun j hj => ?_, fun j hj => ?_⟩
        · simp only [List.mem_cons, not_or] at hj
          rw [a3 j hj.2, w4 j hj.1]
        · rcases List.mem_cons.mp hj with rfl | hj
          · rw [a3 j n1, w3]
            exact Or.inl ⟨e2, by rw [← e1]; exact hd⟩
          · rw [← hne j hj]; exact a4 j hj
    · have far : ∀ q, OnPLC verts plc q → tol ≤ dist2 (vtx nodes (i : Int)) q + 1 / 2 * (1 / 10 ^ 10) := fun q hq => (not_lt.mp hd).trans (e3 q hq)
      cases dbg with
      | true =>
        refine Or.inl ⟨rfl, ?_, i, by simp, far⟩
        rw [List.foldlM_cons, e5 hd]; rfl
      | false =>
        rcases rest_ok (dbg := false) (tol := tol) hg is nodes n2 (fun j hj => hr j (by simp [hj])) (fun j hj => hb j (by simp [hj])) with ⟨a1, _⟩ | ⟨nodes', a1, a2, a3, a4⟩
        · exact absurd a1 (by simp)
        · refine Or.inr ⟨nodes', by rw [List.foldlM_cons, e5 hd]; exact a1, a2, fun j hj => ?_, fun j hj => ?_⟩
          · simp only [List.mem_cons, not_or] at hj
            exact a3 j hj.2
          · rcases List.mem_cons.mp hj with rfl | hj
            · exact Or.inr ⟨rfl, a3 j n1, far⟩
            · exact a4 j hj

theorem boxOnly {d : Nat} {pts : List (List ℝ)} {b1 b2 : List (ℝ × ℝ)} (i1 : IsBox d pts b1) (i2 : IsBox d pts b2) : b1 = b2 := by
  apply List.ext_getElem
  · rw [i1.1.1, i2.1.1]
  · intro j h1 h2
    have g1 : b1[j]? = some b1[j] := by simp [h1]
    have g2 : b2[j]? = some b2[j] := by simp [h2]
    obtain ⟨⟨p, hp, a1⟩, ⟨q, hq, a2⟩⟩ := i1.2 j _ g1
    obtain ⟨⟨r, hr', c1⟩, ⟨s, hs, c2⟩⟩ := i2.2 j _ g2
    refine Prod.ext (le_antisymm (i1.1.2 r hr' j _ _ g1 c1).1 (i2.1.2 p hp j _ _ g2 a1).1) (le_antisymm (i2.1.2 q hq j _ _ g2 a2).2 (i1.1.2 s hs j _ _ g1 c2).2)

theorem bind_ok_iff {α β : Type} {x : Res α} {f : α → Res β} {b : β} : (x >>= f) = .ok b ↔ ∃ a, x = .ok a ∧ f a = .ok b := Res.bind_eq_ok

/-- The tolerance of a boundary: four times the degeneracy times the longest side of the bounding box of its points. -/
def IsTol (degeneracy : ℝ) (verts : List ℝ) (tol : ℝ) : Prop :=
  ∃ lx hx ly hy, IsBox 2 (pointsOf 2 verts) [(lx, hx), (ly, hy)] ∧ tol = 4 * degeneracy * max (hx - lx) (hy - ly)

theorem snapTol_ok (dbg : Bool) {big degeneracy : ℝ} {verts : List ℝ} (h2 : 2 ∣ verts.length) (h0 : verts ≠ []) (hr : ∀ v ∈ verts, -big ≤ v ∧ v ≤ big) :
    ∃ tol, snapTol dbg big degeneracy verts = .ok tol ∧ IsTol degeneracy verts tol := by
  obtain ⟨box, e, hb⟩ := C35_box dbg (by decide) h2 h0 hr
  have hl : box.length = 2 := hb.1.1
  match box, hl with
  | [bx, by'], _ =>
    refine ⟨_, ?_, bx.1, bx.2, by'.1, by'.2, hb, rfl⟩
    unfold snapTol
    rw [e, Res.ok_bind]; rfl

/-- The assignment made by the first loop. -/
theorem claims_of {tol : ℝ} {nodes : List ℝ} {bnodes : List Nat} {verts : List ℝ} {st : State} (h : Inv tol nodes (setAddAll [] bnodes) verts (List.range (verts.length / 2)) st) :
    ∃ claim : Nat → Option Nat, Claims tol nodes bnodes verts claim ∧ (∀ v i, claim v = some i ↔ (v, i) ∈ st.claims) ∧ ∀ v < verts.length / 2, claim v = none ↔ v ∈ st.left := by
  have key : ∀ v i, st.claims.lookup v = some i ↔ (v, i) ∈ st.claims := by
    intro v i
    have hn := h.nodup1
    generalize st.claims = l at hn
    induction l with
    | nil => simp
    | cons c l ih =>
      obtain ⟨n1, n2⟩ := List.nodup_cons.mp hn
      rw [List.lookup_cons]
      by_cases hc : v = c.1
      · rw [show (v == c.1) = true by simpa using hc]
        dsimp only
        constructor
        · intro he; cases he; rw [hc]; exact List.mem_cons_self
        · intro hm
          rcases List.mem_cons.mp hm with hm | hm
          · rw [← hm]
          · exact absurd (List.mem_map_of_mem (f := Prod.fst) hm) (by dsimp only; rw [hc]; exact n1)
      · rw [show (v == c.1) = false by simpa using hc]
        dsimp only
        refine (ih n2).trans ?_
        rw [List.mem_cons]
        constructor
        · exact fun hm => Or.inr hm
        · rintro (hm | hm)
          · exact absurd (by rw [← hm]) hc
          · exact hm
  refine ⟨fun v => st.claims.lookup v, ⟨fun v i hc => ?_, fun v w i hv hw => ?_⟩, key, fun v hv => ?_⟩
  · obtain ⟨a1, a2, a3, _⟩ := h.near _ ((key v i).mp hc)
    exact ⟨List.mem_range.mp a1, by simpa using (mem_setAddAll (y := i) bnodes []).mp a2, a3⟩
  · have hv' := (key v i).mp hv
    have hw' := (key w i).mp hw
    have hn := h.nodup2
    have := List.inj_on_of_nodup_map hn hv' hw' rfl
    exact congrArg Prod.fst this
  · constructor
    · intro hnone
      dsimp only at hnone
      rcases h.all v (List.mem_range.mpr hv) with h' | h'
      · obtain ⟨c, hc, hcv⟩ := List.mem_map.mp h'
        have := (key v c.2).mpr (by rw [← hcv]; exact hc)
        rw [hnone] at this; cases this
      · exact h'
    · intro hl
      by_contra hne
      obtain ⟨i, hi⟩ := Option.ne_none_iff_exists'.mp hne
      exact (h.left v hl).2.1 (List.mem_map_of_mem (f := Prod.fst) ((key v i).mp hi))

theorem inv_start (tol : ℝ) (nodes : List ℝ) (bnodes : List Nat) (verts : List ℝ) : Inv tol nodes (setAddAll [] bnodes) verts [] { nodes := nodes, bset := setAddAll [] bnodes } :=
  ⟨rfl, by simp, (sorted_setAddAll bnodes [] List.Pairwise.nil).imp (fun h => ne_of_lt h), by simp, by simp, by simp, fun _ _ => rfl, by simp, by simp⟩

section
variable {big degeneracy tol : ℝ} {nodes verts : List ℝ} {bnodes : List Nat} {plc : PLC}

/-- Everything about the first loop. -/
theorem first_loop (htol : tol < big) (hb : ∀ i ∈ bnodes, i < nodes.length / 2) :
    ∃ st, (List.range (verts.length / 2)).foldlM (vertexStep big tol verts) { nodes := nodes, bset := setAddAll [] bnodes } = .ok st ∧ Inv tol nodes (setAddAll [] bnodes) verts (List.range (verts.length / 2)) st := by
  obtain ⟨st, e, i⟩ := vertices_inv (verts := verts) htol (b0 := setAddAll [] bnodes) (fun i hi => hb i (by simpa using (mem_setAddAll (y := i) bnodes []).mp hi)) (List.range (verts.length / 2)) [] (inv_start tol nodes bnodes verts)
    (fun v hv => List.mem_range.mp hv) List.nodup_range (by simp)
  exact ⟨st, e, by simpa using i⟩

/-- The effect on the mesh of both loops. -/
theorem snapped_of {dbg : Bool} {st : State} (hi : Inv tol nodes (setAddAll [] bnodes) verts (List.range (verts.length / 2)) st) {claim : Nat → Option Nat} (hc : ∀ v i, claim v = some i ↔ (v, i) ∈ st.claims) {nodes' : List ℝ}
    (h2 : nodes'.length = st.nodes.length) (h3 : ∀ j : Nat, j ∉ st.bset → vtx nodes' (j : Int) = vtx st.nodes (j : Int))
    (h4 : ∀ i ∈ st.bset, (OnPLC verts plc (vtx nodes' (i : Int)) ∧ dist2 (vtx st.nodes (i : Int)) (vtx nodes' (i : Int)) < tol) ∨
          (dbg = false ∧ vtx nodes' (i : Int) = vtx st.nodes (i : Int) ∧ ∀ q, OnPLC verts plc q → tol ≤ dist2 (vtx st.nodes (i : Int)) q + 1 / 2 * (1 / 10 ^ 10))) :
    Snapped tol nodes bnodes verts plc claim nodes' := by
  have hm : ∀ i, i ∈ setAddAll [] bnodes ↔ i ∈ bnodes := fun i => by simpa using mem_setAddAll (y := i) bnodes []
  refine ⟨h2.trans hi.length, fun i hib => ?_, fun v i hvi => ?_, fun i hib hcl => ?_⟩
  · have hnc : i ∉ st.claims.map Prod.snd := by
      intro hm'
      obtain ⟨c, hcm, rfl⟩ := List.mem_map.mp hm'
      exact hib ((hm _).mp (hi.near c hcm).2.1)
    rw [h3 i (fun hbm => hib ((hm i).mp ((hi.bset i).mp hbm).1)), hi.same i hnc]
  · have hcm := (hc v i).mp hvi
    rw [h3 i (fun hbm => ((hi.bset i).mp hbm).2 (List.mem_map_of_mem (f := Prod.snd) hcm))]
    exact (hi.near _ hcm).2.2.2
  · have hnc : i ∉ st.claims.map Prod.snd := by
      intro hm'
      obtain ⟨c, hcm, rfl⟩ := List.mem_map.mp hm'
      exact hcl c.1 ((hc c.1 c.2).mpr hcm)
    have hbm : i ∈ st.bset := (hi.bset i).mpr ⟨(hm i).mpr hib, hnc⟩
    have := h4 i hbm
    rw [hi.same i hnc] at this
    rcases this with h | ⟨_, h⟩
    · exact Or.inl h
    · exact Or.inr h

/-- C41: without assertions. Snapping succeeds with the described effect, and a PLC point with no boundary node exactly at the tolerance stays without a node only if every
boundary node within the tolerance was taken by another PLC point. Missing: PLC points with a boundary node exactly at the tolerance. -/
theorem C41_release_partial (h2 : 2 ∣ verts.length) (h0 : verts ≠ []) (hr : ∀ v ∈ verts, -big ≤ v ∧ v ≤ big) (htol : IsTol degeneracy verts tol) (htb : tol < big) (hb : ∀ i ∈ bnodes, i < nodes.length / 2)
    (hg : GoodFacets (verts.length / 2) verts (allFacets plc)) (hbig : ∀ i ∈ bnodes, ∃ q, OnPLC verts plc q ∧ dist2 (vtx nodes (i : Int)) q + 1 / 2 * (1 / 10 ^ 10) < big) :
    ∃ nodes' claim, snap2 false big degeneracy nodes bnodes verts plc = .ok nodes' ∧ Claims tol nodes bnodes verts claim ∧ Snapped tol nodes bnodes verts plc claim nodes' ∧
      ∀ v < verts.length / 2, (∀ i ∈ bnodes, dist2 (vtx nodes (i : Int)) (vtx verts (v : Int)) ≠ tol) → claim v = none →
        ∀ i ∈ bnodes, dist2 (vtx nodes (i : Int)) (vtx verts (v : Int)) < tol → ∃ w, claim w = some i := by
  obtain ⟨tol', et, ht'⟩ := snapTol_ok false (degeneracy := degeneracy) h2 h0 hr
  have htt : tol' = tol := by
    obtain ⟨a, b, c, d, hb1, rfl⟩ := htol
    obtain ⟨a', b', c', d', hb2, rfl⟩ := ht'
    have := boxOnly hb1 hb2
    simp only [List.cons.injEq, Prod.mk.injEq, and_true] at this
    obtain ⟨⟨rfl, rfl⟩, rfl, rfl⟩ := this
    rfl
  subst htt
  obtain ⟨st, e, hi⟩ := first_loop (verts := verts) htb hb
  obtain ⟨claim, c1, c2, c3⟩ := claims_of hi
  have hm : ∀ i, i ∈ setAddAll [] bnodes ↔ i ∈ bnodes := fun i => by simpa using mem_setAddAll (y := i) bnodes []
  rcases rest_ok (dbg := false) (big := big) (tol := tol') hg st.bset st.nodes hi.bnodup (fun i h => by rw [hi.length]; exact hb i ((hm i).mp ((hi.bset i).mp h).1))
    (fun i h => by rw [hi.same i ((hi.bset i).mp h).2]; exact hbig i ((hm i).mp ((hi.bset i).mp h).1)) with ⟨a, _⟩ | ⟨nodes', e2, e3, e4, e5⟩
  · cases a
  refine ⟨nodes', claim, ?_, c1, snapped_of (dbg := false) hi c2 e3 e4 e5, fun v hv hne hnone i hib hlt => ?_⟩
  · unfold snap2
    rw [et, Res.ok_bind, e, Res.ok_bind, Res.assert_release, Res.ok_bind, Res.assert_release, Res.ok_bind, e2]
  · have hl := (c3 v hv).mp hnone
    have := (hi.left v hl).2.2 (fun j hj => hne j ((hm j).mp hj)) i ((hm i).mpr hib) hlt
    obtain ⟨c, hc, rfl⟩ := List.mem_map.mp this
    exact ⟨c.1, (c2 c.1 c.2).mpr hc⟩

/-- C41: with assertions the call returns only if every PLC point took a boundary node of its own, and every other boundary node was moved onto the PLC. -/
theorem C41_checked (h2 : 2 ∣ verts.length) (h0 : verts ≠ []) (hr : ∀ v ∈ verts, -big ≤ v ∧ v ≤ big) (htol : IsTol degeneracy verts tol) (htb : tol < big) (hb : ∀ i ∈ bnodes, i < nodes.length / 2)
    (hg : GoodFacets (verts.length / 2) verts (allFacets plc)) (hbig : ∀ i ∈ bnodes, ∃ q, OnPLC verts plc q ∧ dist2 (vtx nodes (i : Int)) q + 1 / 2 * (1 / 10 ^ 10) < big) :
    snap2 true big degeneracy nodes bnodes verts plc = .abort ∨
    ∃ nodes' claim, snap2 true big degeneracy nodes bnodes verts plc = .ok nodes' ∧ Claims tol nodes bnodes verts claim ∧ Snapped tol nodes bnodes verts plc claim nodes' ∧
      (∀ v < verts.length / 2, ∃ i, claim v = some i) ∧ ∀ i ∈ bnodes, (∀ v, claim v ≠ some i) → OnPLC verts plc (vtx nodes' (i : Int)) := by
  obtain ⟨tol', et, ht'⟩ := snapTol_ok true (degeneracy := degeneracy) h2 h0 hr
  have htt : tol' = tol := by
    obtain ⟨a, b, c, d, hb1, rfl⟩ := htol
    obtain ⟨a', b', c', d', hb2, rfl⟩ := ht'
    have := boxOnly hb1 hb2
    simp only [List.cons.injEq, Prod.mk.injEq, and_true] at this
    obtain ⟨⟨rfl, rfl⟩, rfl, rfl⟩ := this
    rfl
  subst htt
  obtain ⟨st, e, hi⟩ := first_loop (verts := verts) htb hb
  obtain ⟨claim, c1, c2, c3⟩ := claims_of hi
  have hm : ∀ i, i ∈ setAddAll [] bnodes ↔ i ∈ bnodes := fun i => by simpa using mem_setAddAll (y := i) bnodes []
  have e' : snap2 true big degeneracy nodes bnodes verts plc = (do
      Res.assert true (st.left = [])
      Res.assert true ((setAddAll [] (st.claims.map Prod.snd)).length = verts.length / 2)
      st.bset.foldlM (restStep true big tol' verts plc) st.nodes) := by
    unfold snap2
    rw [et, Res.ok_bind, e, Res.ok_bind]
  rw [e']
  by_cases hl : st.left = []
  · by_cases hs : (setAddAll [] (st.claims.map Prod.snd)).length = verts.length / 2
    · rw [Res.assert_true true hl, Res.ok_bind, Res.assert_true true hs, Res.ok_bind]
      rcases rest_ok (dbg := true) (big := big) (tol := tol') hg st.bset st.nodes hi.bnodup (fun i h => by rw [hi.length]; exact hb i ((hm i).mp ((hi.bset i).mp h).1))
        (fun i h => by rw [hi.same i ((hi.bset i).mp h).2]; exact hbig i ((hm i).mp ((hi.bset i).mp h).1)) with ⟨_, a, _⟩ | ⟨nodes', e2, e3, e4, e5⟩
      · exact Or.inl a
      refine Or.inr ⟨nodes', claim, e2, c1, snapped_of (dbg := true) hi c2 e3 e4 e5, fun v hv => ?_, fun i hib hcl => ?_⟩
      · have : claim v ≠ none := fun hn => by have := (c3 v hv).mp hn; rw [hl] at this; simp at this
        exact Option.ne_none_iff_exists'.mp this
      · have hnc : i ∉ st.claims.map Prod.snd := by
          intro hm'
          obtain ⟨c, hcm, rfl⟩ := List.mem_map.mp hm'
          exact hcl c.1 ((c2 c.1 c.2).mpr hcm)
        rcases e5 i ((hi.bset i).mpr ⟨(hm i).mpr hib, hnc⟩) with h | ⟨h, _⟩
        · exact h.1
        · cases h
    · rw [Res.assert_true true hl, Res.ok_bind, Res.assert_debug_false hs]; exact Or.inl rfl
  · rw [Res.assert_debug_false hl]; exact Or.inl rfl
/-- Boundary nodes that fit a PLC: every PLC point has a boundary node within the tolerance, no boundary node is within the tolerance of two PLC points or exactly at the tolerance from one, and
all are closer to the PLC than the tolerance (and rounding). -/
structure Fits (tol : ℝ) (nodes : List ℝ) (bnodes : List Nat) (verts : List ℝ) (plc : PLC) : Prop where
  corner : ∀ v < verts.length / 2, ∃ i ∈ bnodes, dist2 (vtx nodes (i : Int)) (vtx verts (v : Int)) < tol
  apart : ∀ i ∈ bnodes, ∀ v < verts.length / 2, ∀ w < verts.length / 2, dist2 (vtx nodes (i : Int)) (vtx verts (v : Int)) < tol → dist2 (vtx nodes (i : Int)) (vtx verts (w : Int)) < tol → v = w
  tie : ∀ i ∈ bnodes, ∀ v < verts.length / 2, dist2 (vtx nodes (i : Int)) (vtx verts (v : Int)) ≠ tol
  close : ∀ i ∈ bnodes, ∃ q, OnPLC verts plc q ∧ dist2 (vtx nodes (i : Int)) q + 1 / 2 * (1 / 10 ^ 10) < tol

/-- C41: boundary nodes that fit the PLC are snapped in builds with and without assertions; every PLC point gets a node, and every boundary node ends on a PLC point or on the PLC. -/
theorem C41_success (dbg : Bool) (h2 : 2 ∣ verts.length) (h0 : verts ≠ []) (hr : ∀ v ∈ verts, -big ≤ v ∧ v ≤ big) (htol : IsTol degeneracy verts tol) (htb : tol < big) (hb : ∀ i ∈ bnodes, i < nodes.length / 2)
    (hg : GoodFacets (verts.length / 2) verts (allFacets plc)) (hfit : Fits tol nodes bnodes verts plc) :
    ∃ nodes' claim, snap2 dbg big degeneracy nodes bnodes verts plc = .ok nodes' ∧ Claims tol nodes bnodes verts claim ∧ Snapped tol nodes bnodes verts plc claim nodes' ∧
      (∀ v < verts.length / 2, ∃ i, claim v = some i) ∧ ∀ i ∈ bnodes, (∀ v, claim v ≠ some i) → OnPLC verts plc (vtx nodes' (i : Int)) := by
  obtain ⟨tol', et, ht'⟩ := snapTol_ok dbg (degeneracy := degeneracy) h2 h0 hr
  have htt : tol' = tol := by
    obtain ⟨a, b, c, d, hb1, rfl⟩ := htol
    obtain ⟨a', b', c', d', hb2, rfl⟩ := ht'
    have := boxOnly hb1 hb2
    simp only [List.cons.injEq, Prod.mk.injEq, and_true] at this
    obtain ⟨⟨rfl, rfl⟩, rfl, rfl⟩ := this
    rfl
  subst htt
  obtain ⟨st, e, hi⟩ := first_loop (verts := verts) htb hb
  obtain ⟨claim, c1, c2, c3⟩ := claims_of hi
  have hm : ∀ i, i ∈ setAddAll [] bnodes ↔ i ∈ bnodes := fun i => by simpa using mem_setAddAll (y := i) bnodes []
  have hbig : ∀ i ∈ bnodes, ∃ q, OnPLC verts plc q ∧ dist2 (vtx nodes (i : Int)) q + 1 / 2 * (1 / 10 ^ 10) < big := fun i hib => by
    obtain ⟨q, a, b⟩ := hfit.close i hib
    exact ⟨q, a, b.trans htb⟩
  have hl : st.left = [] := by
    rw [List.eq_nil_iff_forall_not_mem]
    intro v hv
    obtain ⟨b1, b2, b3⟩ := hi.left v hv
    have hvn : v < verts.length / 2 := List.mem_range.mp b1
    obtain ⟨i, hib, hlt⟩ := hfit.corner v hvn
    have := b3 (fun j hj => hfit.tie j ((hm j).mp hj) v hvn) i ((hm i).mpr hib) hlt
    obtain ⟨c, hc, hci⟩ := List.mem_map.mp this
    obtain ⟨a1, a2, a3, _⟩ := hi.near c hc
    rw [hci] at a3
    have : c.1 = v := hfit.apart i hib c.1 (List.mem_range.mp a1) v hvn a3 hlt
    exact b2 (List.mem_map.mpr ⟨c, hc, this⟩)
  have hs : (setAddAll [] (st.claims.map Prod.snd)).length = verts.length / 2 := by
    have p1 : (setAddAll [] (st.claims.map Prod.snd)).Perm (st.claims.map Prod.snd) := by
      rw [List.perm_ext_iff_of_nodup ((sorted_setAddAll _ [] List.Pairwise.nil).imp fun h => ne_of_lt h) hi.nodup2]
      intro a; simpa using mem_setAddAll (y := a) (st.claims.map Prod.snd) []
    have p2 : (st.claims.map Prod.fst).Perm (List.range (verts.length / 2)) := by
      rw [List.perm_ext_iff_of_nodup hi.nodup1 List.nodup_range]
      intro a
      constructor
      · intro h
        obtain ⟨c, hc, rfl⟩ := List.mem_map.mp h
        exact (hi.near c hc).1
      · intro h
        rcases hi.all a h with h' | h'
        · exact h'
        · rw [hl] at h'; simp at h'
    rw [p1.length_eq, List.length_map, ← List.length_map (f := Prod.fst), p2.length_eq, List.length_range]
  have e' : snap2 dbg big degeneracy nodes bnodes verts plc = st.bset.foldlM (restStep dbg big tol' verts plc) st.nodes := by
    unfold snap2
    rw [et, Res.ok_bind, e, Res.ok_bind, Res.assert_true dbg hl, Res.ok_bind, Res.assert_true dbg hs, Res.ok_bind]
  rw [e']
  rcases rest_ok (dbg := dbg) (big := big) (tol := tol') hg st.bset st.nodes hi.bnodup (fun i h => by rw [hi.length]; exact hb i ((hm i).mp ((hi.bset i).mp h).1))
    (fun i h => by rw [hi.same i ((hi.bset i).mp h).2]; exact hbig i ((hm i).mp ((hi.bset i).mp h).1)) with ⟨_, _, i, hib, hfar⟩ | ⟨nodes', e2, e3, e4, e5⟩
  · exfalso
    obtain ⟨q, a, b⟩ := hfit.close i ((hm i).mp ((hi.bset i).mp hib).1)
    have := hfar q a
    rw [hi.same i ((hi.bset i).mp hib).2] at this
    linarith
  refine ⟨nodes', claim, e2, c1, snapped_of (dbg := dbg) hi c2 e3 e4 e5, fun v hv => ?_, fun i hib hcl => ?_⟩
  · have : claim v ≠ none := fun hn => by have := (c3 v hv).mp hn; rw [hl] at this; simp at this
    exact Option.ne_none_iff_exists'.mp this
  · have hnc : i ∉ st.claims.map Prod.snd := by
      intro hm'
      obtain ⟨c, hcm, rfl⟩ := List.mem_map.mp hm'
      exact hcl c.1 ((c2 c.1 c.2).mpr hcm)
    have hbm := (hi.bset i).mpr ⟨(hm i).mpr hib, hnc⟩
    rcases e5 i hbm with h | ⟨_, _, h⟩
    · exact h.1
    · exfalso
      obtain ⟨q, a, b⟩ := hfit.close i hib
      have := h q a
      rw [hi.same i hnc] at this
      linarith
end

/-- A boundary node exactly at the tolerance hides the ones after it: if the first boundary node is exactly at the tolerance from the first PLC point, that point
takes no node, although another boundary node may be much closer, and with assertions the program is aborted. -/
theorem C41_tie_fails {big degeneracy tol : ℝ} {nodes verts : List ℝ} {bnodes : List Nat} {plc : PLC} (h2 : 2 ∣ verts.length) (h0 : verts ≠ []) (hr : ∀ v ∈ verts, -big ≤ v ∧ v ≤ big) (htol : IsTol degeneracy verts tol) (htb : tol < big) {b : Nat} (hbb : b ∈ bnodes) (hfirst : ∀ i ∈ bnodes, b ≤ i) (hb : ∀ i ∈ bnodes, i < nodes.length / 2)
    (htie : dist2 (vtx nodes (b : Int)) (vtx verts 0) = tol) : snap2 true big degeneracy nodes bnodes verts plc = .abort := by
  obtain ⟨tol', et, ht'⟩ := snapTol_ok true (degeneracy := degeneracy) h2 h0 hr
  have htt : tol' = tol := by
    obtain ⟨a, b, c, d, hb1, rfl⟩ := htol
    obtain ⟨a', b', c', d', hb2, rfl⟩ := ht'
    have := boxOnly hb1 hb2
    simp only [List.cons.injEq, Prod.mk.injEq, and_true] at this
    obtain ⟨⟨rfl, rfl⟩, rfl, rfl⟩ := this
    rfl
  subst htt
  have hm : ∀ i, i ∈ setAddAll [] bnodes ↔ i ∈ bnodes := fun i => by simpa using mem_setAddAll (y := i) bnodes []
  obtain ⟨rest, hset⟩ : ∃ rest, setAddAll [] bnodes = b :: rest := by
    have hs := sorted_setAddAll bnodes [] List.Pairwise.nil
    have hbm := (hm b).mpr hbb
    cases hl : setAddAll [] bnodes with
    | nil => rw [hl] at hbm; simp at hbm
    | cons c l =>
      rw [hl] at hs hbm
      have h1 := hfirst c ((hm c).mp (by rw [hl]; simp))
      rcases List.mem_cons.mp hbm with rfl | hbl
      · exact ⟨l, rfl⟩
      · exact absurd ((List.pairwise_cons.mp hs).1 b hbl) (by omega)
  have hlen : 0 < verts.length / 2 := by
    have : 0 < verts.length := List.length_pos_of_ne_nil h0
    omega
  have hstep : vertexStep big tol' verts { nodes := nodes, bset := setAddAll [] bnodes } 0 = .ok { nodes := nodes, bset := setAddAll [] bnodes, left := [0] } := by
    unfold vertexStep
    rw [rdV2_vtx hlen, Res.ok_bind]
    have : scan tol' nodes (vtx verts ((0 : Nat) : Int)) (setAddAll [] bnodes) big none = .ok (tol', some b) := by
      rw [hset]
      unfold scan
      rw [if_pos htb, rdV2_vtx (hb b hbb), Res.ok_bind, distance2_eq, show vtx verts ((0 : Nat) : Int) = vtx verts 0 from rfl, htie]
      cases rest with
      | nil => rfl
      | cons a l => unfold scan; rw [if_neg (lt_irrefl _)]
    rw [this, Res.ok_bind]
    dsimp only
    rw [if_neg (lt_irrefl _)]; rfl
  have h1 : Inv tol' nodes (setAddAll [] bnodes) verts [0] { nodes := nodes, bset := setAddAll [] bnodes, left := [0] } := by
    obtain ⟨st', e', i'⟩ := vertexStep_inv (verts := verts) htb (b0 := setAddAll [] bnodes) (fun i hi => hb i ((hm i).mp hi)) (inv_start tol' nodes bnodes verts) (v := 0) hlen (by simp)
    rw [hstep] at e'
    cases e'
    exact i'
  obtain ⟨m, hmm⟩ : ∃ m, verts.length / 2 = m + 1 := ⟨verts.length / 2 - 1, by omega⟩
  obtain ⟨st, e, hi⟩ := vertices_inv (verts := verts) htb (b0 := setAddAll [] bnodes) (fun i hi => hb i ((hm i).mp hi)) ((List.range m).map Nat.succ) [0] h1 (fun v hv => by
    obtain ⟨k, hk, rfl⟩ := List.mem_map.mp hv
    have := List.mem_range.mp hk
    omega) (List.nodup_range.map Nat.succ_injective) (fun v hv => by
    obtain ⟨k, hk, rfl⟩ := List.mem_map.mp hv
    simp)
  -- the first point stays in the list of points without a node
  have hleft : st.left ≠ [] := by
    have mono : ∀ (vs : List Nat) (s s' : State), vs.foldlM (vertexStep big tol' verts) s = .ok s' → s.left ≠ [] → s'.left ≠ [] := by
      intro vs
      induction vs with
      | nil => intro s s' hs hne; cases hs; exact hne
      | cons v vs ih =>
        intro s s' hs hne
        rw [List.foldlM_cons, bind_ok_iff] at hs
        obtain ⟨s1, hs1, hs2⟩ := hs
        refine ih s1 s' hs2 ?_
        unfold vertexStep at hs1
        rw [bind_ok_iff] at hs1
        obtain ⟨p, _, hs1⟩ := hs1
        rw [bind_ok_iff] at hs1
        obtain ⟨r, _, hs1⟩ := hs1
        split at hs1
        · cases hr2 : r.2 with
          | none => rw [hr2] at hs1; cases hs1
          | some i =>
            rw [hr2] at hs1
            dsimp only at hs1
            rw [bind_ok_iff] at hs1
            obtain ⟨nn, _, hs1⟩ := hs1
            cases hs1
            exact hne
        · cases hs1
          simp
    exact mono _ _ _ e (by simp)
  unfold snap2
  rw [et, Res.ok_bind, hmm, List.range_succ_eq_map, List.foldlM_cons, hstep, Res.ok_bind, e, Res.ok_bind, Res.assert_debug_false hleft]
  rfl

/-- In 3D nothing is snapped, and with assertions every call is aborted. -/
theorem C41_3d_fails (nodes : List ℝ) : snap3 true nodes = .abort ∧ snap3 false nodes = .ok nodes := by
  constructor
  · unfold snap3; rw [Res.assert_debug_false (fun h => h)]; rfl
  · unfold snap3; rw [Res.assert_release]; rfl

theorem square_tol : IsTol (1 / 40) squareR (1 / 10) := by
  refine ⟨0, 1, 0, 1, ⟨⟨rfl, ?_⟩, ?_⟩, by norm_num⟩
  · intro p hp j b x hb hx
    have hpp : p = [0, 0] ∨ p = [1, 0] ∨ p = [1, 1] ∨ p = [0, 1] := by
      simpa [pointsOf, squareR, List.range_succ] using hp
    have hj : j < 2 := (List.getElem?_eq_some_iff.mp hb).1
    have hb' : b = (0, 1) := by
      rcases (by omega : j = 0 ∨ j = 1) with rfl | rfl <;> simpa using hb.symm
    subst hb'
    rcases (by omega : j = 0 ∨ j = 1) with rfl | rfl <;> rcases hpp with rfl | rfl | rfl | rfl <;> (have := Option.some.inj hx; subst this; norm_num)
  · intro j b hb
    have hj : j < 2 := (List.getElem?_eq_some_iff.mp hb).1
    have hb' : b = (0, 1) := by
      rcases (by omega : j = 0 ∨ j = 1) with rfl | rfl <;> simpa using hb.symm
    subst hb'
    have m0 : [(0 : ℝ), 0] ∈ pointsOf 2 squareR := by simp [pointsOf, squareR, List.range_succ]
    have m1 : [(1 : ℝ), 1] ∈ pointsOf 2 squareR := by simp [pointsOf, squareR, List.range_succ]
    rcases (by omega : j = 0 ∨ j = 1) with rfl | rfl
    · exact ⟨⟨_, m0, rfl⟩, _, m1, rfl⟩
    · exact ⟨⟨_, m0, rfl⟩, _, m1, rfl⟩

/-- The hypotheses of C41 hold for the unit square, tolerance 1/10 and two boundary nodes near a corner and near a side; those of the failure for a node at distance 1/10 from
the first corner and another one exactly on that corner. -/
example : 2 ∣ squareR.length ∧ squareR ≠ [] ∧ (∀ v ∈ squareR, -100 ≤ v ∧ v ≤ 100) ∧ IsTol (1 / 40) squareR (1 / 10) ∧ GoodFacets (squareR.length / 2) squareR (allFacets squareFacets) ∧
    (∀ i ∈ [0, 1], ∃ q, OnPLC squareR squareFacets q ∧ dist2 (vtx [1 / 50, 0, 1 / 2, 0] ((i : Nat) : Int)) q + 1 / 2 * (1 / 10 ^ 10) < 100) ∧
    dist2 (vtx [1 / 10, 0, 0, 0] ((0 : Nat) : Int)) (vtx squareR 0) = 1 / 10 ∧ vtx [1 / 10, 0, 0, 0] ((1 : Nat) : Int) = vtx squareR 0 := by
  refine ⟨⟨4, rfl⟩, by simp [squareR], ?_, square_tol, ⟨rfl, by decide⟩, ?_, ?_, rfl⟩
  · intro v hv
    simp only [squareR, List.mem_cons, List.not_mem_nil, or_false] at hv
    rcases hv with rfl | rfl | rfl | rfl | rfl | rfl | rfl | rfl <;> norm_num
  · intro i hi
    refine ⟨⟨1 / 2, 0⟩, ⟨[0, 1], by decide, 1 / 2, by norm_num, by norm_num, ?_⟩, ?_⟩
    · ext <;> norm_num [lerp2, segA, segB, vtx, squareR]
    · simp only [List.mem_cons, List.not_mem_nil, or_false] at hi
      have : dist2 (vtx [1 / 50, 0, 1 / 2, 0] ((i : Nat) : Int)) ⟨1 / 2, 0⟩ ≤ 1 := by
        unfold dist2
        rw [Real.sqrt_le_left (by norm_num)]
        rcases hi with rfl | rfl <;> norm_num [sq2, vtx]
      linarith
  · have : dist2 (vtx [1 / 10, 0, 0, 0] ((0 : Nat) : Int)) (vtx squareR 0) = Real.sqrt ((1 / 10) ^ 2) := by
      unfold dist2; congr 1; norm_num [sq2, vtx, squareR]
    rw [this, Real.sqrt_sq (by norm_num)]

noncomputable def fiveNodes : List ℝ := [1 / 50, 0, 1, 1 / 50, 1, 1, 0, 1, 1 / 2, 1 / 50]

/-- The hypotheses of `C41_success` hold for the unit square, tolerance 1/10 and five boundary nodes, one near each corner and one near the middle of a side. -/
example : Fits (1 / 10) fiveNodes [0, 1, 2, 3, 4] squareR squareFacets := by
  have lt : ∀ a b : V2 ℝ, dist2 a b < 1 / 10 ↔ sq2 a b < (1 / 10) ^ 2 := fun a b => Real.sqrt_lt' (by norm_num)
  have n0 : vtx fiveNodes ((0 : Nat) : Int) = ⟨1 / 50, 0⟩ := rfl
  have n1 : vtx fiveNodes ((1 : Nat) : Int) = ⟨1, 1 / 50⟩ := rfl
  have n2 : vtx fiveNodes ((2 : Nat) : Int) = ⟨1, 1⟩ := rfl
  have n3 : vtx fiveNodes ((3 : Nat) : Int) = ⟨0, 1⟩ := rfl
  have n4 : vtx fiveNodes ((4 : Nat) : Int) = ⟨1 / 2, 1 / 50⟩ := rfl
  have c0 : vtx squareR ((0 : Nat) : Int) = ⟨0, 0⟩ := rfl
  have c1 : vtx squareR ((1 : Nat) : Int) = ⟨1, 0⟩ := rfl
  have c2 : vtx squareR ((2 : Nat) : Int) = ⟨1, 1⟩ := rfl
  have c3 : vtx squareR ((3 : Nat) : Int) = ⟨0, 1⟩ := rfl
  have v4 : ∀ v, v < squareR.length / 2 → v = 0 ∨ v = 1 ∨ v = 2 ∨ v = 3 := by
    intro v hv
    have : squareR.length / 2 = 4 := rfl
    omega
  refine ⟨?_, ?_, ?_, ?_⟩
  · intro v hv
    refine ⟨v, ?_, ?_⟩
    · rcases v4 v hv with rfl | rfl | rfl | rfl <;> simp
    · rw [lt]
      rcases v4 v hv with rfl | rfl | rfl | rfl <;> simp only [n0, n1, n2, n3, n4, c0, c1, c2, c3, sq2] <;> norm_num
  · intro i hi v hv w hw
    rw [lt, lt]
    simp only [List.mem_cons, List.not_mem_nil, or_false] at hi
    rcases v4 v hv with rfl | rfl | rfl | rfl <;> rcases v4 w hw with rfl | rfl | rfl | rfl <;> rcases hi with rfl | rfl | rfl | rfl | rfl <;> simp only [n0, n1, n2, n3, n4, c0, c1, c2, c3, sq2] <;> norm_num
  · intro i hi v hv he
    have : sq2 (vtx fiveNodes (i : Int)) (vtx squareR (v : Int)) = (1 / 10) ^ 2 := by
      rw [← he, dist2, Real.sq_sqrt (by unfold sq2; positivity)]
    simp only [List.mem_cons, List.not_mem_nil, or_false] at hi
    revert this
    rcases v4 v hv with rfl | rfl | rfl | rfl <;> rcases hi with rfl | rfl | rfl | rfl | rfl <;> simp only [n0, n1, n2, n3, n4, c0, c1, c2, c3, sq2] <;> norm_num
  · intro i hi
    have key : ∀ x t : ℝ, 0 ≤ t → t ≤ 1 → x = t → ∀ a : V2 ℝ, sq2 a ⟨x, 0⟩ ≤ (1 / 20) ^ 2 → ∃ q, OnPLC squareR squareFacets q ∧ dist2 a q + 1 / 2 * (1 / 10 ^ 10) < 1 / 10 := by
      intro x t h0 h1 hx a ha
      refine ⟨⟨x, 0⟩, ⟨[0, 1], by decide, t, h0, h1, ?_⟩, ?_⟩
      · subst hx; ext <;> norm_num [lerp2, segA, segB, vtx, squareR]
      · have : dist2 a ⟨x, 0⟩ ≤ 1 / 20 := Real.sqrt_le_iff.2 ⟨by norm_num, ha⟩
        linarith
    have key' : ∀ x t : ℝ, 0 ≤ t → t ≤ 1 → x = 1 - t → ∀ a : V2 ℝ, sq2 a ⟨x, 1⟩ ≤ (1 / 20) ^ 2 → ∃ q, OnPLC squareR squareFacets q ∧ dist2 a q + 1 / 2 * (1 / 10 ^ 10) < 1 / 10 := by
      intro x t h0 h1 hx a ha
      refine ⟨⟨x, 1⟩, ⟨[2, 3], by decide, t, h0, h1, ?_⟩, ?_⟩
      · subst hx
        have a2 : segA squareR [2, 3] = ⟨1, 1⟩ := rfl
        have b2 : segB squareR [2, 3] = ⟨0, 1⟩ := rfl
        rw [a2, b2]; unfold lerp2; ext <;> norm_num; ring
      · have : dist2 a ⟨x, 1⟩ ≤ 1 / 20 := Real.sqrt_le_iff.2 ⟨by norm_num, ha⟩
        linarith
    simp only [List.mem_cons, List.not_mem_nil, or_false] at hi
    rcases hi with rfl | rfl | rfl | rfl | rfl
    · exact key 0 0 (by norm_num) (by norm_num) rfl _ (by simp only [n0, n1, n2, n3, n4, sq2]; norm_num)
    · exact key 1 1 (by norm_num) (by norm_num) rfl _ (by simp only [n0, n1, n2, n3, n4, sq2]; norm_num)
    · exact key' 1 0 (by norm_num) (by norm_num) (by norm_num) _ (by simp only [n0, n1, n2, n3, n4, sq2]; norm_num)
    · exact key' 0 1 (by norm_num) (by norm_num) (by norm_num) _ (by simp only [n0, n1, n2, n3, n4, sq2]; norm_num)
    · exact key (1 / 2) (1 / 2) (by norm_num) (by norm_num) rfl _ (by simp only [n0, n1, n2, n3, n4, sq2]; norm_num)
end Verif.Snap
