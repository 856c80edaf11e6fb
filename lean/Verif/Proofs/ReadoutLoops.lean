import Verif.Proofs.Readout
import Verif.Proofs.Compact
/- The loops over the cells, and the two node maps. -/
namespace Verif.Readout
open Verif Verif.Mesh Verif.Internal Verif.PointMap

/-- `p` is an end of one of the sides. -/
def IsEnd (sides : List (P2 × P2)) (p : P2) : Prop := ∃ t ∈ sides, p = t.1 ∨ p = t.2

/-- The debug build has stopped at a vertex that is matched ambiguously. -/
def BadIn (bad : P2 → List P2 → Prop) (R : P2 → P2 → Bool) (sides : List (P2 × P2)) : Prop :=
  ∃ p nodes, bad p nodes ∧ (nodes.Pairwise fun q p => R p q = false) ∧ (∀ q ∈ nodes, IsEnd sides q) ∧ IsEnd sides p

theorem BadIn.mono {bad : P2 → List P2 → Prop} {R : P2 → P2 → Bool} {l l' : List (P2 × P2)} (h : BadIn bad R l) (hs : ∀ t ∈ l, t ∈ l') : BadIn bad R l' := by
  obtain ⟨p, nodes, h1, h2, h3, t, ht, htp⟩ := h
  exact ⟨p, nodes, h1, h2, fun q hq => (h3 q hq).imp fun t h => ⟨hs t h.1, h.2⟩, t, hs t ht, htp⟩

theorem roSides_spec {σ : Type} (dbg : Bool) {look : Look σ} {R : P2 → P2 → Bool} {I : σ → List P2 → Prop} {bad : P2 → List P2 → Prop} (hL : Looks look R I bad) {i : Nat} :
    ∀ (es : List (P2 × P2)) {s : RO σ} {sides : List (P2 × P2)} {rings : List (List (P2 × P2))} {r : List (P2 × P2)}, Inv R I s sides rings → rings[i]? = some r →
    (∃ s', roSides dbg look i es s = .ok s' ∧ Inv R I s' (sides ++ es) (rings.set i (r ++ es))) ∨ (roSides dbg look i es s = .abort ∧ BadIn bad R (sides ++ es))
  | [], s, sides, rings, r, h, hi => by
    left
    refine ⟨s, rfl, ?_⟩
    have : rings.set i (r ++ []) = rings := by
      rw [List.append_nil]
      obtain ⟨hl, he⟩ := List.getElem?_eq_some_iff.mp hi
      rw [← he]; exact List.set_getElem_self hl
    rw [this]; simpa using h
  | e :: es, s, sides, rings, r, h, hi => by
    have hl : i < rings.length := (List.getElem?_eq_some_iff.mp hi).1
    unfold roSides
    rcases roEdge_spec dbg hL h hi e.1 e.2 with ⟨s', e1, h'⟩ | ⟨e1, hb⟩
    · rw [e1, Res.ok_bind]
      rcases roSides_spec dbg hL es h' (List.getElem?_set_self hl) with ⟨s'', e2, h''⟩ | ⟨e2, hb⟩
      · left
        refine ⟨s'', e2, ?_⟩
        rw [List.set_set] at h''
        simpa using h''
      · right
        exact ⟨e2, by simpa using hb⟩
    · right
      refine ⟨by rw [e1]; rfl, ?_⟩
      obtain ⟨p, nodes, b1, b2, b3, t, ht, htp⟩ := hb
      simp only [List.mem_singleton] at ht
      subst ht
      refine ⟨p, nodes, b1, b2, fun q hq => ?_, e, by simp, htp⟩
      rcases b3 q hq with hq | ⟨t, ht, htq⟩
      · obtain ⟨t, ht, h⟩ := h.nodes_from q hq; exact ⟨t, by simp [ht], h⟩
      · simp only [List.mem_singleton] at ht; subst ht
        exact ⟨e, by simp, htq⟩

/-! ### The two maps -/

theorem looks_boost (dbg : Bool) : Looks (boostLook dbg) (fun p q => decide (p = q)) (fun m nodes => Numbers m nodes ∧ m.map Prod.fst = nodes) (fun _ _ => False) := by
  refine ⟨by simp, ?_⟩
  rintro m nodes p ⟨h, hm⟩
  have hlen : m.length = nodes.length := by rw [← hm]; simp
  have hnd : nodes.Nodup := by rw [← hm]; exact h.nodup
  unfold boostLook
  rcases addKey_list h hm p with ⟨a1, a2, a3, a4⟩ | ⟨a1, a2, a3⟩
  · left
    refine ⟨(addKey p m).2, ?_, ⟨a3, a4⟩, fun q hq => decide_eq_false fun hpq => a2 (hpq ▸ hq)⟩
    rw [if_pos a1, Res.assert_true dbg (by omega), Res.ok_bind, a1, hlen]; rfl
  · right; left
    refine ⟨(addKey p m).1, (addKey p m).2, ?_, by rw [a2]; exact ⟨h, hm⟩, by omega, ?_⟩
    · rw [if_neg (by omega)]; rfl
    · obtain ⟨hj, he⟩ := List.getElem?_eq_some_iff.mp a3
      rw [List.findIdx_eq hj]
      refine ⟨by rw [he]; simp, fun j hj' => ?_⟩
      refine decide_eq_false fun hpj => ?_
      have := (hnd.getElem_inj_iff (hi := by omega) (hj := hj)).mp (hpj.symm.trans he.symm)
      omega

instance {p q : P2} : Decidable (Within2 p q) := by unfold Within2; infer_instance

theorem near2 {p q : P2} : Near 2 [p.1, p.2] [q.1, q.2] ↔ Within2 p q := by
  unfold Near Within2; simp

theorem Within2.refl (p : P2) : Within2 p p := by unfold Within2; omega
theorem Within2.symm {p q : P2} (h : Within2 p q) : Within2 q p := by unfold Within2 at *; omega

theorem looks_clip (dbg : Bool) : Looks (clipLook dbg) (fun p q => decide (Within2 p q)) (fun m nodes => Holds 2 m (nodes.map fun p => [p.1, p.2]) ∧ m.tol = 2)
    (fun p nodes => dbg = true ∧ ∃ (j k : Nat) (q q' : P2), j ≠ k ∧ nodes[j]? = some q ∧ nodes[k]? = some q' ∧ Within2 p q ∧ Within2 p q') := by
  refine ⟨fun p => by simpa using Within2.refl p, ?_⟩
  rintro m nodes p ⟨h, ht⟩
  obtain ⟨s1, s2⟩ := index_spec dbg h (by omega) (by omega) (p := [p.1, p.2]) rfl
  rw [ht] at s1 s2
  rw [List.length_map] at s1
  have get : ∀ (k : Nat) (q : List Int), (nodes.map fun p => [p.1, p.2])[k]? = some q → ∃ a, nodes[k]? = some a ∧ q = [a.1, a.2] := by
    intro k q hk
    rw [List.getElem?_map] at hk
    obtain ⟨a, h1, h2⟩ := Option.map_eq_some_iff.mp hk
    exact ⟨a, h1, h2.symm⟩
  have put : ∀ {k : Nat} {a : P2}, nodes[k]? = some a → (nodes.map fun p => [p.1, p.2])[k]? = some [a.1, a.2] := by
    intro k a hk; rw [List.getElem?_map, hk]; rfl
  unfold clipLook
  rcases first_match 2 [p.1, p.2] (nodes.map fun p => [p.1, p.2]) with hno | ⟨k, q, hk, hn, hmin⟩
  · left
    obtain ⟨m', e, hm, hmt⟩ := s1 hno
    refine ⟨m', by rw [e]; simp, ⟨by simpa using hm, hmt⟩, fun q hq => decide_eq_false fun hw => ?_⟩
    obtain ⟨k, hk⟩ := List.getElem?_of_mem hq
    exact hno k _ (put hk) (near2.mpr hw)
  · obtain ⟨u1, u2⟩ := s2 k q hk hn hmin
    obtain ⟨a, ha, rfl⟩ := get k q hk
    have hkl : k < nodes.length := (List.getElem?_eq_some_iff.mp ha).1
    have hok : index dbg m [p.1, p.2] = .ok (k, m) → ∃ j m', (do let r ← index dbg m [p.1, p.2]; return (r.1, decide (r.1 = nodes.length), r.2) : Res (Nat × Bool × PMap)) = .ok (j, false, m') ∧ (Holds 2 m' (nodes.map fun p => [p.1, p.2]) ∧ m'.tol = 2) ∧ j < nodes.length ∧ nodes.findIdx (fun q => decide (Within2 p q)) = j := by
      intro e
      refine ⟨k, m, ?_, ⟨h, ht⟩, hkl, ?_⟩
      · rw [e, Res.ok_bind]
        have : decide (k = nodes.length) = false := decide_eq_false (by omega)
        simp [this]
      · rw [List.findIdx_eq hkl]
        have hea : nodes[k] = a := (List.getElem?_eq_some_iff.mp ha).2
        refine ⟨by rw [hea]; exact decide_eq_true (near2.mp hn), fun j hj => decide_eq_false fun hw => ?_⟩
        have := hmin j _ (put (List.getElem?_eq_getElem (by omega : j < nodes.length))) (near2.mpr hw)
        omega
    by_cases huniq : ∀ (j : Nat) (q' : List Int), (nodes.map fun p => [p.1, p.2])[j]? = some q' → Near 2 [p.1, p.2] q' → k = j
    · exact Or.inr (Or.inl (hok (u1 huniq)))
    · push Not at huniq
      obtain ⟨j, q', hj, hn', hne⟩ := huniq
      have := u2 ⟨j, q', hj, hn', hne⟩
      cases dbg with
      | false => exact Or.inr (Or.inl (hok this))
      | true =>
        obtain ⟨b, hb, rfl⟩ := get j q' hj
        refine Or.inr (Or.inr ⟨?_, rfl, k, j, a, b, hne, ha, hb, near2.mp hn, near2.mp hn'⟩)
        rw [this]; rfl

/-! ### Boost -/

/-- The sides of a cell of the diagram, without the infinite ones. -/
def VCell.ring (c : VCell) : List (P2 × P2) := c.edges.filterMap fun e => match e with | (some p, some q) => some (p, q) | _ => none

/-- The cell of a proper generator, among `n`. -/
def VCell.Mine (n : Nat) (c : VCell) : Prop := c.point = true ∧ c.index < n
instance (n : Nat) (c : VCell) : Decidable (c.Mine n) := by unfold VCell.Mine; infer_instance

theorem boostCell_eq (dbg : Bool) (i : Nat) : ∀ (es : List VEdge) (s : RO (KMap P2)), (∀ e ∈ es, e.1.isSome ∧ e.2.isSome) →
    boostCell dbg i es s = roSides dbg (boostLook dbg) i (es.filterMap fun e => match e with | (some p, some q) => some (p, q) | _ => none) s
  | [], s, _ => rfl
  | (a, b) :: es, s, h => by
    obtain ⟨h1, h2⟩ := h (a, b) (by simp)
    obtain ⟨p, rfl⟩ := Option.isSome_iff_exists.mp h1
    obtain ⟨q, rfl⟩ := Option.isSome_iff_exists.mp h2
    simp only [boostCell, finite, Res.ok_bind, List.filterMap_cons, roSides]
    congr 1
    funext s'
    exact boostCell_eq dbg i es s' fun e he => h e (by simp [he])

theorem boostCells_spec (dbg : Bool) {n : Nat} : ∀ (cells : List VCell) {s : RO (KMap P2)} {sides : List (P2 × P2)} {rings : List (List (P2 × P2))}, rings.length = n →
    (∀ c ∈ cells, c.Mine n → c.edges ≠ [] ∧ ∀ e ∈ c.edges, e.1.isSome ∧ e.2.isSome) →
    Inv (fun p q => decide (p = q)) (fun m nodes => Numbers m nodes ∧ m.map Prod.fst = nodes) s sides rings →
    ∃ s' rings', boostCells dbg n cells s = .ok s' ∧ Inv (fun p q => decide (p = q)) (fun m nodes => Numbers m nodes ∧ m.map Prod.fst = nodes) s' (sides ++ (cells.filter fun c => decide (c.Mine n)).flatMap VCell.ring) rings' ∧
      rings'.length = n ∧ ∀ i, i < n → rings'.getD i [] = rings.getD i [] ++ (cells.filter fun c => decide (c.point = true ∧ c.index = i)).flatMap VCell.ring
  | [], s, sides, rings, hn, _, h => ⟨s, rings, rfl, by simpa using h, hn, by simp⟩
  | c :: cs, s, sides, rings, hn, hf, h => by
    unfold boostCells
    by_cases hm : c.Mine n
    · obtain ⟨hne, hfin⟩ := hf c (by simp) hm
      have hil : c.index < rings.length := by rw [hn]; exact hm.2
      rw [if_pos (show c.point = true ∧ c.index < n from hm), if_neg hne, boostCell_eq dbg c.index c.edges s hfin]
      rcases roSides_spec dbg (looks_boost dbg) (i := c.index) c.ring h (List.getElem?_eq_getElem hil) with ⟨s1, e1, h1⟩ | ⟨e1, p, nodes, hb, _⟩
      · obtain ⟨s2, rings2, e2, h2, l2, g2⟩ := boostCells_spec dbg cs (by simpa using hn) (fun d hd => hf d (by simp [hd])) h1
        refine ⟨s2, rings2, ?_, ?_, l2, fun i hi => ?_⟩
        · show (roSides dbg (boostLook dbg) c.index c.ring s >>= fun s => boostCells dbg n cs s) = _
          rw [e1]; exact e2
        · simpa [hm] using h2
        · rw [g2 i hi]
          by_cases hci : c.index = i
          · subst hci
            simp [List.getD, hil, hm.1]
          · simp [List.getD, List.getElem?_set_ne hci, hci]
      · exact absurd hb not_false
    · rw [if_neg (show ¬ (c.point = true ∧ c.index < n) from hm)]
      obtain ⟨s2, rings2, e2, h2, l2, g2⟩ := boostCells_spec dbg cs hn (fun d hd => hf d (by simp [hd])) h
      refine ⟨s2, rings2, e2, by simpa [hm] using h2, l2, fun i hi => ?_⟩
      rw [g2 i hi]
      have : ¬ (c.point = true ∧ c.index = i) := by
        rintro ⟨a, b⟩; exact hm ⟨a, by omega⟩
      simp [this]

/-! ### Clipping -/

/-- The rings after some cells are rebuilt. -/
def rebuild (rings : List (List (P2 × P2))) (again : List (Nat × List P2)) : List (List (P2 × P2)) := again.foldl (fun r c => r.set c.1 (closedSides c.2)) rings

theorem clipCells_spec (dbg : Bool) {R : P2 → P2 → Bool} {I : PMap → List P2 → Prop} {bad : P2 → List P2 → Prop} (hL : Looks (clipLook dbg) R I bad) :
    ∀ (rs : List (List P2)) {i : Nat} {s : RO PMap} {sides : List (P2 × P2)} {rings : List (List (P2 × P2))}, i + rs.length = rings.length → (∀ j, i ≤ j → j < rings.length → rings[j]? = some []) →
    (∀ r ∈ rs, 3 < r.length ∧ r.head? = r.getLast?) → Inv R I s sides rings →
    (∃ s', clipCells dbg i rs s = .ok s' ∧ Inv R I s' (sides ++ rs.flatMap openSides) (rings.take i ++ rs.map openSides)) ∨ (clipCells dbg i rs s = .abort ∧ BadIn bad R (sides ++ rs.flatMap openSides))
  | [], i, s, sides, rings, hl, _, _, h => by
    left
    refine ⟨s, rfl, ?_⟩
    simp only [List.length_nil, Nat.add_zero] at hl
    rw [hl]; simpa using h
  | r :: rs, i, s, sides, rings, hl, he, hr, h => by
    obtain ⟨h3, hcl⟩ := hr r (by simp)
    simp only [List.length_cons] at hl
    have hil : i < rings.length := by omega
    have hi := he i (Nat.le_refl _) hil
    unfold clipCells
    have hne : r ≠ [] := by rintro rfl; simp at h3
    rw [Res.assert_true dbg h3, Res.ok_bind, if_neg hne, Res.assert_true dbg hcl, Res.ok_bind]
    rcases roSides_spec dbg hL (i := i) (openSides r) h hi with ⟨s1, e1, h1⟩ | ⟨e1, hb⟩
    · rw [e1, Res.ok_bind]
      rw [List.nil_append] at h1
      have step := clipCells_spec dbg hL rs (i := i + 1) (by simp; omega) (by
        intro j hj hjl
        rw [List.length_set] at hjl
        rw [List.getElem?_set_ne (by omega)]; exact he j (by omega) hjl) (fun x hx => hr x (by simp [hx])) h1
      have ht : (rings.set i (openSides r)).take (i + 1) = rings.take i ++ [openSides r] := by
        rw [List.take_succ_eq_append_getElem (by simpa using hil)]
        simp [List.take_set_of_le]
      rcases step with ⟨s2, e2, h2⟩ | ⟨e2, hb⟩
      · left
        refine ⟨s2, e2, ?_⟩
        rw [ht] at h2
        simpa using h2
      · right
        exact ⟨e2, by simpa using hb⟩
    · right
      refine ⟨by rw [e1]; rfl, hb.mono fun t ht => ?_⟩
      simp only [List.flatMap_cons, List.mem_append] at ht ⊢
      tauto

theorem clear_inv {σ : Type} {R : P2 → P2 → Bool} {I : σ → List P2 → Prop} {s : RO σ} {sides : List (P2 × P2)} {rings : List (List (P2 × P2))} (h : Inv R I s sides rings) (i : Nat) :
    Inv R I { s with cells := s.cells.set i [] } sides (rings.set i []) := by
  refine ⟨h.map, h.apart, h.nodes_from, h.found, h.numbers, h.emap, h.edges_from, ?_, by simp [h.cells_len], ?_⟩
  · intro r hr t ht
    rcases List.mem_or_eq_of_mem_set hr with hr | rfl
    · exact h.rings_sub r hr t ht
    · simp at ht
  · intro k c r hc hr
    dsimp only at hc ⊢
    by_cases hk : i = k
    · subst hk
      have hil : i < rings.length := by have := (List.getElem?_eq_some_iff.mp hr).1; simpa using this
      rw [List.getElem?_set_self (by rw [h.cells_len]; exact hil)] at hc
      rw [List.getElem?_set_self hil] at hr
      injection hc with hc; injection hr with hr; subst hc hr; simp
    · rw [List.getElem?_set_ne hk] at hc hr
      exact h.cells k c r hc hr

theorem clipAgain_spec (dbg : Bool) {R : P2 → P2 → Bool} {I : PMap → List P2 → Prop} {bad : P2 → List P2 → Prop} (hL : Looks (clipLook dbg) R I bad) :
    ∀ (ag : List (Nat × List P2)) {s : RO PMap} {sides : List (P2 × P2)} {rings : List (List (P2 × P2))}, (∀ c ∈ ag, c.1 < rings.length) → Inv R I s sides rings →
    (∃ s', clipAgain dbg ag s = .ok s' ∧ Inv R I s' (sides ++ ag.flatMap fun c => closedSides c.2) (rebuild rings ag)) ∨ (clipAgain dbg ag s = .abort ∧ BadIn bad R (sides ++ ag.flatMap fun c => closedSides c.2))
  | [], s, sides, rings, _, h => Or.inl ⟨s, rfl, by simpa [rebuild] using h⟩
  | c :: ag, s, sides, rings, hl, h => by
    have hil := hl c (by simp)
    unfold clipAgain
    rw [wr_lt (by rw [h.cells_len]; exact hil), Res.ok_bind]
    rcases roSides_spec dbg hL (i := c.1) (closedSides c.2) (clear_inv h c.1) (List.getElem?_set_self hil) with ⟨s1, e1, h1⟩ | ⟨e1, hb⟩
    · rw [e1, Res.ok_bind]
      rw [List.nil_append, List.set_set] at h1
      rcases clipAgain_spec dbg hL ag (by intro d hd; rw [List.length_set]; exact hl d (by simp [hd])) h1 with ⟨s2, e2, h2⟩ | ⟨e2, hb⟩
      · left; exact ⟨s2, e2, by simpa [rebuild] using h2⟩
      · right; exact ⟨e2, by simpa using hb⟩
    · right
      refine ⟨by rw [e1]; rfl, hb.mono fun t ht => ?_⟩
      simp only [List.flatMap_cons, List.mem_append] at ht ⊢
      tauto

/-! ### Reading the invariant -/

/-- The position given to a vertex. -/
def posOf (R : P2 → P2 → Bool) (nodes : List P2) (p : P2) : P2 := nodes.getD (idOf R nodes p) p

theorem posOf_spec {R : P2 → P2 → Bool} {nodes : List P2} {p : P2} (h : nodes.findIdx (R p) < nodes.length) : posOf R nodes p ∈ nodes ∧ R p (posOf R nodes p) = true ∧ nodes[idOf R nodes p]? = some (posOf R nodes p) := by
  unfold posOf idOf
  have e : nodes.getD (nodes.findIdx (R p)) p = nodes[nodes.findIdx (R p)] := by simp [List.getD, h]
  rw [e]
  exact ⟨List.getElem_mem _, List.findIdx_getElem, List.getElem?_eq_getElem h⟩

theorem posOf_inj {R : P2 → P2 → Bool} {nodes : List P2} (hr : ∀ p, R p p = true) (ha : nodes.Pairwise fun q p => R p q = false) {p q : P2} (hp : nodes.findIdx (R p) < nodes.length) (hq : nodes.findIdx (R q) < nodes.length) :
    posOf R nodes p = posOf R nodes q ↔ idOf R nodes p = idOf R nodes q := by
  have h1 := (posOf_spec hp).2.2
  have h2 := (posOf_spec hq).2.2
  constructor
  · intro e
    rw [e] at h1
    rcases Nat.lt_trichotomy (idOf R nodes p) (idOf R nodes q) with hlt | he | hlt
    · obtain ⟨l1, g1⟩ := List.getElem?_eq_some_iff.mp h1
      obtain ⟨l2, g2⟩ := List.getElem?_eq_some_iff.mp h2
      have := List.pairwise_iff_getElem.mp ha _ _ l1 l2 hlt
      rw [g1, g2, hr] at this; cases this
    · exact he
    · obtain ⟨l1, g1⟩ := List.getElem?_eq_some_iff.mp h1
      obtain ⟨l2, g2⟩ := List.getElem?_eq_some_iff.mp h2
      have := List.pairwise_iff_getElem.mp ha _ _ l2 l1 hlt
      rw [g1, g2, hr] at this; cases this
  · intro e; rw [e, h2] at h1; exact (Option.some.inj h1).symm

theorem Inv.sides_of_cell {σ : Type} {R : P2 → P2 → Bool} {I : σ → List P2 → Prop} {s : RO σ} {sides : List (P2 × P2)} {rings : List (List (P2 × P2))} (h : Inv R I s sides rings) (hr : ∀ p, R p p = true)
    {i : Nat} {c : List Int} {r : List (P2 × P2)} (hc : s.cells[i]? = some c) (hi : rings[i]? = some r) :
    c.map (side s.nodes s.edges) = ((r.map fun t => (posOf R s.nodes t.1, posOf R s.nodes t.2)).filter fun t => decide (t.1 ≠ t.2)).map some := by
  have hd := h.cells i c r hc hi
  have hsub := h.rings_sub r (List.mem_of_getElem? hi)
  have key : ∀ (r : List (P2 × P2)) (c : List Int), (∀ t ∈ r, t ∈ sides) →
      c.map (directed s.edges) = ((r.map fun t => (((idOf R s.nodes t.1 : Nat) : Int), ((idOf R s.nodes t.2 : Nat) : Int))).filter fun t => decide (t.1 ≠ t.2)).map some →
      c.map (side s.nodes s.edges) = ((r.map fun t => (posOf R s.nodes t.1, posOf R s.nodes t.2)).filter fun t => decide (t.1 ≠ t.2)).map some := by
    intro r
    induction r with
    | nil => intro c _ e; simp at e ⊢; exact e
    | cons t r ih =>
      intro c hs e
      have hf := h.found t (hs t (by simp))
      have hinj := posOf_inj hr h.apart hf.1 hf.2
      by_cases ht : idOf R s.nodes t.1 = idOf R s.nodes t.2
      · have ht' := hinj.mpr ht
        simp only [List.map_cons, List.filter_cons, ht, ht', ne_eq, not_true_eq_false, decide_false, Bool.false_eq_true, if_false] at e ⊢
        exact ih c (fun t h => hs t (by simp [h])) e
      · have ht' : ¬ posOf R s.nodes t.1 = posOf R s.nodes t.2 := fun e => ht (hinj.mp e)
        have ht2 : ¬ ((idOf R s.nodes t.1 : Nat) : Int) = ((idOf R s.nodes t.2 : Nat) : Int) := by exact_mod_cast ht
        simp only [List.map_cons, List.filter_cons, ne_eq, ht2, ht', not_false_eq_true, decide_true, if_true] at e ⊢
        cases c with
        | nil => simp at e
        | cons k c =>
          simp only [List.map_cons, List.cons.injEq] at e ⊢
          refine ⟨?_, ih c (fun t h => hs t (by simp [h])) e.2⟩
          obtain ⟨l1, g1⟩ := List.getElem?_eq_some_iff.mp (posOf_spec hf.1).2.2
          obtain ⟨l2, g2⟩ := List.getElem?_eq_some_iff.mp (posOf_spec hf.2).2.2
          rw [side_eq e.1 ⟨by omega, by exact_mod_cast l1⟩ ⟨by omega, by exact_mod_cast l2⟩]
          simp only [Int.toNat_natCast, g1, g2]
  exact key r c hsub hd

theorem Inv.edges_range {σ : Type} {R : P2 → P2 → Bool} {I : σ → List P2 → Prop} {s : RO σ} {sides : List (P2 × P2)} {rings : List (List (P2 × P2))} (h : Inv R I s sides rings) :
    ∀ e ∈ s.edges, 0 ≤ e.1 ∧ e.1 < e.2 ∧ e.2 < s.nodes.length := by
  intro e he
  obtain ⟨t, ht, hne, rfl⟩ := h.edges_from e he
  have hf := h.found t ht
  unfold idOf at *
  dsimp only
  omega

theorem Inv.cells_range {σ : Type} {R : P2 → P2 → Bool} {I : σ → List P2 → Prop} {s : RO σ} {sides : List (P2 × P2)} {rings : List (List (P2 × P2))} (h : Inv R I s sides rings) :
    ∀ C ∈ s.cells, ∀ k ∈ C, posID k < s.edges.length := by
  intro C hC k hk
  obtain ⟨i, hi⟩ := List.getElem?_of_mem hC
  have hil : i < rings.length := by rw [← h.cells_len]; exact (List.getElem?_eq_some_iff.mp hi).1
  have hd := h.cells i C rings[i] hi (List.getElem?_eq_getElem hil)
  have hm : directed s.edges k ∈ C.map (directed s.edges) := List.mem_map_of_mem hk
  rw [hd] at hm
  obtain ⟨y, _, hy⟩ := List.mem_map.mp hm
  unfold directed at hy
  unfold posID flip
  split
  · rw [if_pos ‹_›] at hy
    exact (List.getElem?_eq_some_iff.mp hy.symm).1
  · rw [if_neg ‹_›] at hy
    obtain ⟨z, hz, _⟩ := Option.map_eq_some_iff.mp hy.symm
    exact (List.getElem?_eq_some_iff.mp hz).1

theorem inv_start {σ : Type} {R : P2 → P2 → Bool} {I : σ → List P2 → Prop} {m : σ} {n : Nat} (h : I m []) : Inv R I { map := m, cells := List.replicate n [] } [] (List.replicate n []) := by
  refine ⟨h, by simp, by simp, by simp, numbers_nil, rfl, by simp, ?_, by simp, ?_⟩
  · intro r hr; rw [List.eq_of_mem_replicate hr]; simp
  · intro i c r hc hr
    rw [List.eq_of_mem_replicate (List.mem_of_getElem? hc), List.eq_of_mem_replicate (List.mem_of_getElem? hr)]; simp

/-! ### Walks -/

theorem Walk.filter {α : Type} [DecidableEq α] : ∀ {w : List (α × α)} {a b : α}, Walk a w b → Walk a (w.filter fun t => decide (t.1 ≠ t.2)) b
  | [], _, _, h => h
  | s :: w, a, b, h => by
    obtain ⟨h1, h2⟩ := h
    have := Walk.filter h2
    rw [List.filter_cons]
    by_cases hs : s.1 = s.2
    · rw [if_neg (by simpa using hs)]
      rw [← hs, h1] at this; exact this
    · rw [if_pos (by simpa using hs)]; exact ⟨h1, this⟩

theorem Walk.map {α β : Type} {f : α → β} : ∀ {w : List (α × α)} {a b : α}, Walk a w b → Walk (f a) (w.map fun t => (f t.1, f t.2)) (f b)
  | [], _, _, h => congrArg f h
  | _ :: _, _, _, h => ⟨congrArg f h.1, Walk.map h.2⟩

theorem walk_open : ∀ (p : P2) (r : List P2), Walk p (openSides (p :: r)) ((p :: r).getLast (by simp))
  | p, [] => rfl
  | p, q :: r => ⟨rfl, by rw [List.getLast_cons_cons]; exact walk_open q r⟩

theorem closed_open {r : List P2} (hne : r ≠ []) (h : r.head? = r.getLast?) : ClosedWalk (openSides r) := by
  cases r with
  | nil => exact absurd rfl hne
  | cons p r =>
    refine ⟨p, ?_⟩
    have := walk_open p r
    rw [List.getLast?_eq_some_getLast (by simp)] at h
    simp only [List.head?_cons, Option.some.injEq] at h
    rwa [← h] at this

theorem walk_zip : ∀ (p : P2) (r : List P2) (z : P2), Walk p ((p :: r).zip (r ++ [z])) z
  | p, [], z => ⟨rfl, rfl⟩
  | p, q :: r, z => ⟨rfl, walk_zip q r z⟩

theorem closed_closed (r : List P2) (hne : r ≠ []) : ClosedWalk (closedSides r) := by
  cases r with
  | nil => exact absurd rfl hne
  | cons p r =>
    refine ⟨p, ?_⟩
    have : closedSides (p :: r) = (p :: r).zip (r ++ [p]) := by
      unfold closedSides; rw [List.rotate_cons_succ, List.rotate_zero]
    rw [this]; exact walk_zip p r p
end Verif.Readout
