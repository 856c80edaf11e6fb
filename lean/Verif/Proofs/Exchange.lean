import Verif.Model.Exchange
import Verif.Spec.Exchange
import Verif.Proofs.Mpi
import Mathlib.Order.Lattice.Nat
/-
The exchange of node coordinates: what each process sends and expects, and the coordinates it ends with.
-/
namespace Verif.Exch
open Verif Verif.Mesh Verif.Mpi
variable {R γ : Type}

theorem rdG {α : Type} {l : List α} {i : Nat} (h : i < l.length) (d : α) : rd l i = .ok (l.getD i d) := by simp [h]

theorem foldlM_one {α β : Type} (f : β → α → Res β) (b : β) (a : α) : [a].foldlM f b = f b a := by
  simp only [List.foldlM_cons, List.foldlM_nil, Res.bind_eq]; cases f b a <;> rfl

theorem foldlM_pure {α β : Type} {f : β → α → Res β} {g : β → α → β} (I : β → Prop) : ∀ (l : List α) (b : β), I b →
    (∀ a ∈ l, ∀ b, I b → f b a = .ok (g b a) ∧ I (g b a)) → l.foldlM f b = .ok (l.foldl g b) ∧ I (l.foldl g b)
  | [], b, hb, _ => ⟨rfl, hb⟩
  | a :: l, b, hb, h => by
    obtain ⟨h1, h2⟩ := h a (by simp) b hb
    rw [List.foldlM_cons, h1, List.foldl_cons]
    exact foldlM_pure I l _ h2 fun a ha => h a (by simp [ha])

theorem mapM_pure {α β : Type} {g : α → Res β} {f : α → β} : ∀ (l : List α), (∀ a ∈ l, g a = .ok (f a)) → l.mapM g = .ok (l.map f)
  | [], _ => rfl
  | a :: l, h => by
    rw [List.mapM_cons, h a (by simp), Res.bind_eq, Res.bind_ok, mapM_pure l fun a ha => h a (by simp [ha])]; rfl

/-! ### Owners -/

/-- The owner that process `p` computes for its node `i` from its first `k` neighbours. -/
def ownF (m : Tess R) (p : Nat) (k : Nat) (i : Nat) : Nat :=
  (List.range k).foldl (fun o j => if i ∈ m.sharedNodes.getD j [] then min o (m.neighborDomains.getD j 0) else o) p

theorem ownF_succ (m : Tess R) (p k i : Nat) :
    ownF m p (k + 1) i = if i ∈ m.sharedNodes.getD k [] then min (ownF m p k i) (m.neighborDomains.getD k 0) else ownF m p k i := by
  rw [ownF, List.range_succ, List.foldl_append]; rfl

theorem ownF_le (m : Tess R) (p i : Nat) : ∀ k, ownF m p k i ≤ p
  | 0 => le_refl _
  | k + 1 => by rw [ownF_succ]; have := ownF_le m p i k; split <;> omega

theorem ownF_le' (m : Tess R) (p i : Nat) : ∀ k j, j < k → i ∈ m.sharedNodes.getD j [] → ownF m p k i ≤ m.neighborDomains.getD j 0
  | 0, j, h, _ => by omega
  | k + 1, j, h, hi => by
    rw [ownF_succ]
    by_cases hjk : j = k
    · subst hjk; rw [if_pos hi]; exact min_le_right _ _
    · have := ownF_le' m p i k j (by omega) hi
      split <;> omega

theorem ownF_mem (m : Tess R) (p i : Nat) : ∀ k, ownF m p k i = p ∨ ∃ j, j < k ∧ i ∈ m.sharedNodes.getD j [] ∧ ownF m p k i = m.neighborDomains.getD j 0
  | 0 => Or.inl rfl
  | k + 1 => by
    rw [ownF_succ]
    have ih := ownF_mem m p i k
    split
    · rename_i h
      rcases min_choice (ownF m p k i) (m.neighborDomains.getD k 0) with h1 | h1
      · rw [h1]
        rcases ih with h2 | ⟨j, hj, h2⟩
        · exact Or.inl h2
        · exact Or.inr ⟨j, by omega, h2⟩
      · exact Or.inr ⟨k, by omega, h, h1⟩
    · rcases ih with h2 | ⟨j, hj, h2⟩
      · exact Or.inl h2
      · exact Or.inr ⟨j, by omega, h2⟩

theorem foldl_min_get (d : Nat) : ∀ (l : List Nat) (own : List Nat) (i : Nat), i < own.length →
    (l.foldl (fun own i => own.set i (min (own.getD i 0) d)) own).getD i 0 = if i ∈ l then min (own.getD i 0) d else own.getD i 0
  | [], own, i, h => by simp
  | a :: l, own, i, h => by
    rw [List.foldl_cons, foldl_min_get d l _ i (by simpa using h)]
    by_cases hai : a = i
    · subst hai
      have : (own.set a (min (own.getD a 0) d)).getD a 0 = min (own.getD a 0) d := by simp [h]
      rw [this]
      simp
    · have : (own.set a (min (own.getD a 0) d)).getD i 0 = own.getD i 0 := by simp [hai, h]
      rw [this]
      have h2 : i ∈ a :: l ↔ i ∈ l := by simp [Ne.symm hai]
      simp only [h2]

theorem foldl_set_length (d : Nat) : ∀ (l : List Nat) (own : List Nat), (l.foldl (fun own i => own.set i (min (own.getD i 0) d)) own).length = own.length
  | [], _ => rfl
  | a :: l, own => by rw [List.foldl_cons, foldl_set_length]; simp

theorem ownNodes_spec (dbg : Bool) {D p : Nat} {m : Tess R} (hlen : m.sharedNodes.length = m.neighborDomains.length)
    (hn : ∀ l ∈ m.sharedNodes, ∀ i ∈ l, i < numNodes D m) :
    ownNodes dbg D p m = .ok ((List.range (numNodes D m)).map (ownF m p m.neighborDomains.length)) := by
  unfold ownNodes
  have key : ∀ k, k ≤ m.neighborDomains.length → (List.range k).foldlM (fun own k => do
    let l ← rd m.sharedNodes k
    l.foldlM (fun own i => do
      Res.assert dbg (i < m.nodes.length / D)
      let o ← rd own i
      let d ← rd m.neighborDomains k
      wr own i (min o d)) own) (List.replicate (m.nodes.length / D) p) = Res.ok ((List.range (numNodes D m)).map (ownF m p k)) := by
    intro k
    induction k with
    | zero =>
      intro _
      simp only [List.range_zero, List.foldlM_nil, Res.pure_eq, Res.ok.injEq]
      apply List.ext_getElem <;> simp [numNodes, ownF]
    | succ k ih =>
      intro hk
      rw [List.range_succ, List.foldlM_append, ih (by omega), Res.bind_eq, Res.bind_ok, foldlM_one]
      have hkl : k < m.sharedNodes.length := by omega
      rw [rdG hkl []]
      simp only [Res.bind_eq, Res.bind_ok]
      have hin : ∀ i ∈ m.sharedNodes.getD k [], i < numNodes D m := fun i hi => hn _ (by simp [hkl]) i hi
      obtain ⟨h1, h2⟩ := foldlM_pure (f := fun own i => (Res.assert dbg (i < m.nodes.length / D)).bind fun _ => (rd own i).bind fun o =>
          (rd m.neighborDomains k).bind fun d => wr own i (min o d)) (g := fun own i => own.set i (min (own.getD i 0) (m.neighborDomains.getD k 0)))
        (I := fun own => own.length = numNodes D m) (m.sharedNodes.getD k []) ((List.range (numNodes D m)).map (ownF m p k)) (by simp) (by
          intro i hi own hown
          have hi' := hin i hi
          constructor
          · rw [Res.assert_true dbg (show i < m.nodes.length / D from hi'), Res.bind_ok, rdG (by omega) 0, Res.bind_ok, rdG (by omega) 0, Res.bind_ok,
              wr_lt (by omega)]
          · simpa using hown)
      rw [h1]
      simp only [Res.ok.injEq]
      apply List.ext_getElem
      · rw [h2]; simp
      · intro i hi1 hi2
        rw [h2] at hi1
        have := foldl_min_get (m.neighborDomains.getD k 0) (m.sharedNodes.getD k []) ((List.range (numNodes D m)).map (ownF m p k)) i (by simpa using hi1)
        rw [List.getD_eq_getElem?_getD, List.getElem?_eq_getElem (by rw [h2]; exact hi1), Option.getD_some] at this
        rw [this]
        simp [hi1, ownF_succ]
  exact key _ (le_refl _)

/-! ### What is sent and received -/

def sndL (m : Tess R) (p k : Nat) : List Nat := (m.sharedNodes.getD k []).filter fun i => ownF m p m.neighborDomains.length i = p
def rcvL (m : Tess R) (p k : Nat) : List Nat := (m.sharedNodes.getD k []).filter fun i => ownF m p m.neighborDomains.length i = m.neighborDomains.getD k 0

theorem split_foldl (own : Nat → Nat) (rank d : Nat) (hd : d ≠ rank) : ∀ (l : List Nat) (s : List Nat × List Nat),
    l.foldl (fun s i => if own i = rank then (s.1 ++ [i], s.2) else if own i = d then (s.1, s.2 ++ [i]) else s) s =
      (s.1 ++ l.filter (fun i => own i = rank), s.2 ++ l.filter (fun i => own i = d))
  | [], s => by simp
  | a :: l, s => by
    rw [List.foldl_cons, split_foldl own rank d hd l]
    by_cases h1 : own a = rank
    · have h2 : own a ≠ d := by rw [h1]; exact Ne.symm hd
      have h3 : rank ≠ d := Ne.symm hd
      simp [h1, h3]
    · by_cases h2 : own a = d
      · simp [h2, hd]
      · simp [h1, h2]

theorem splitNodes_spec (dbg : Bool) {D p d : Nat} {m : Tess R} {l : List Nat} (hd : d ≠ p) (hl : ∀ i ∈ l, i < numNodes D m) :
    splitNodes dbg p ((List.range (numNodes D m)).map (ownF m p m.neighborDomains.length)) d l =
      .ok (l.filter (fun i => ownF m p m.neighborDomains.length i = p), l.filter (fun i => ownF m p m.neighborDomains.length i = d)) := by
  unfold splitNodes
  have := (foldlM_pure (f := fun s i => (rd ((List.range (numNodes D m)).map (ownF m p m.neighborDomains.length)) i).bind fun o =>
      (Res.assert dbg (o ≤ p)).bind fun _ => Res.ok (if o = p then (s.1 ++ [i], s.2) else if o = d then (s.1, s.2 ++ [i]) else s))
    (g := fun s i => if ownF m p m.neighborDomains.length i = p then (s.1 ++ [i], s.2) else if ownF m p m.neighborDomains.length i = d then (s.1, s.2 ++ [i]) else s)
    (I := fun _ : List Nat × List Nat => True) l ([], []) trivial (by
      intro i hi s _
      refine ⟨?_, trivial⟩
      have hi' := hl i hi
      rw [rd_lt (by simpa using hi')]
      simp only [List.getElem_map, List.getElem_range, Res.bind_ok]
      rw [Res.assert_true dbg (ownF_le m p i _), Res.bind_ok])).1
  rw [split_foldl _ _ _ hd] at this
  simpa using this

/-- Coordinates of node `i` in the flat list `l`. -/
def nodeL (D : Nat) (l : List R) (i : Nat) : List R := (l.drop (D * i)).take D

theorem in_range {D i : Nat} {l : List R} (h : i < l.length / D) : D * i + D ≤ l.length := by
  have h1 : D * (i + 1) ≤ D * (l.length / D) := Nat.mul_le_mul_left _ h
  have h2 := Nat.mul_div_le l.length D
  rw [Nat.mul_succ] at h1
  omega

theorem nodeL_length {D i : Nat} {l : List R} (h : i < l.length / D) : (nodeL D l i).length = D := by
  have := in_range h
  simp [nodeL]; omega

theorem mapM_rd {D i : Nat} {l : List R} (h : i < l.length / D) : ((List.range D).mapM fun k => rd l (D * i + k)) = .ok (nodeL D l i) := by
  have hr := in_range h
  cases hD : D with
  | zero => subst hD; simp at h
  | succ D' =>
    have hne : l ≠ [] := by rintro rfl; simp at h
    obtain ⟨x, hx⟩ := List.exists_mem_of_ne_nil _ hne
    rw [← hD]
    rw [mapM_pure (f := fun k => l.getD (D * i + k) x) _ (by
      intro k hk
      exact rdG (by have := List.mem_range.1 hk; omega) x)]
    congr 1
    apply List.ext_getElem
    · rw [nodeL_length h]; simp
    · intro k h1 h2
      simp only [List.length_map, List.length_range] at h1
      simp only [List.getElem_map, List.getElem_range, nodeL, List.getElem_take, List.getElem_drop]
      simp [show D * i + k < l.length by omega]

theorem extractCoords_spec (dbg : Bool) {D : Nat} {nodes : List R} {ids : List Nat} (h : ∀ i ∈ ids, i < nodes.length / D) :
    extractCoords dbg D nodes ids = .ok (ids.flatMap (nodeL D nodes)) := by
  unfold extractCoords
  have := (foldlM_pure (f := fun c i => (Res.assert dbg (i < nodes.length / D)).bind fun _ =>
      ((List.range D).mapM fun k => rd nodes (D * i + k)).bind fun v => Res.ok (c ++ v)) (g := fun c i => c ++ nodeL D nodes i) (I := fun _ : List R => True)
    ids [] trivial (by
      intro i hi c _
      exact ⟨by rw [Res.assert_true dbg (h i hi), Res.bind_ok, mapM_rd (h i hi), Res.bind_ok], trivial⟩)).1
  have hfl : ∀ (ids : List Nat) (c : List R), ids.foldl (fun c i => c ++ nodeL D nodes i) c = c ++ ids.flatMap (nodeL D nodes) := by
    intro ids
    induction ids with
    | nil => simp
    | cons a t ih => intro c; rw [List.foldl_cons, ih]; simp
  rw [hfl] at this
  simpa using this

theorem flatMap_length {D : Nat} {f : Nat → List R} : ∀ (l : List Nat), (∀ i ∈ l, (f i).length = D) → (l.flatMap f).length = D * l.length
  | [], _ => by simp
  | a :: l, h => by
    rw [List.flatMap_cons, List.length_append, h a (by simp), flatMap_length l fun i hi => h i (by simp [hi]), List.length_cons, Nat.mul_succ]; omega

def msgOf (D : Nat) (m : Tess R) (p k : Nat) : Nat × Option (List R) :=
  (D * (sndL m p k).length, if sndL m p k = [] then none else some ((sndL m p k).flatMap (node D m)))

theorem postNode_spec (dbg : Bool) {D p k : Nat} {m : Tess R} (hk : k < m.neighborDomains.length) (hlen : m.sharedNodes.length = m.neighborDomains.length)
    (hp : m.neighborDomains.getD k 0 ≠ p) (hn : ∀ l ∈ m.sharedNodes, ∀ i ∈ l, i < numNodes D m) (hs : ∀ l ∈ m.sharedNodes, D * l.length < 2 ^ 31) :
    postNode dbg D p m ((List.range (numNodes D m)).map (ownF m p m.neighborDomains.length)) k = .ok (msgOf D m p k, rcvL m p k) := by
  have hmem : m.sharedNodes.getD k [] ∈ m.sharedNodes := by simp [show k < m.sharedNodes.length by omega]
  have hsz : D * (sndL m p k).length < 2 ^ 31 :=
    lt_of_le_of_lt (Nat.mul_le_mul_left _ (List.length_filter_le _ _)) (hs _ hmem)
  unfold postNode
  rw [rdG (by omega) [], rdG hk 0]
  simp only [Res.bind_eq, Res.bind_ok]
  rw [splitNodes_spec dbg hp (hn _ hmem)]
  simp only [Res.bind_ok]
  show (if (sndL m p k).length = 0 then _ else _) = _
  have hmod : D * (sndL m p k).length % 2 ^ 32 = D * (sndL m p k).length := Nat.mod_eq_of_lt (lt_trans hsz (by decide))
  have hfold : ((m.sharedNodes.getD k []).filter fun i => ownF m p m.neighborDomains.length i = p) = sndL m p k := rfl
  by_cases h0 : sndL m p k = []
  · rw [if_pos (by rw [h0]; rfl), hfold, hmod]
    simp [msgOf, h0, rcvL]
  · rw [if_neg (by simpa using h0), hfold, hmod]
    have hin : ∀ i ∈ sndL m p k, i < m.nodes.length / D := fun i hi => hn _ hmem i (List.mem_filter.1 hi).1
    rw [extractCoords_spec dbg hin, Res.bind_ok]
    have hl : ((sndL m p k).flatMap (nodeL D m.nodes)).length = D * (sndL m p k).length := flatMap_length _ fun i hi => nodeL_length (hin i hi)
    rw [Res.assert_true dbg hl, Res.bind_ok, if_neg (by omega)]
    simp only [msgOf, if_neg h0, Res.pure_eq, rcvL]
    rfl

/-! ### Unpacking -/

def setNode (D : Nat) (l : List R) (i : Nat) (v : List R) : List R := l.take (D * i) ++ v ++ l.drop (D * i + D)

theorem set_mid (a : List R) (x y : R) (b : List R) : (a ++ x :: b).set a.length y = a ++ y :: b := by
  rw [List.set_append_right _ _ (le_refl _)]; simp

theorem writeNode {D i j : Nat} {c l : List R} (hi : D * i + D ≤ l.length) (hc : D * j + D ≤ c.length) :
    (List.range D).foldlM (fun nodes k => do
      let v ← rd c (D * j + k)
      wr nodes (D * i + k) v) l = .ok (setNode D l i (nodeL D c j)) := by
  have key : ∀ k, k ≤ D → (List.range k).foldlM (fun nodes k => (rd c (D * j + k)).bind fun v => wr nodes (D * i + k) v) l =
      .ok (l.take (D * i) ++ (c.drop (D * j)).take k ++ l.drop (D * i + k)) := by
    intro k
    induction k with
    | zero => intro _; simp
    | succ k ih =>
      intro hk
      have h1 : D * j + k < c.length := by omega
      have h2 : D * i + k < l.length := by omega
      rw [List.range_succ, List.foldlM_append, ih (by omega), Res.bind_eq, Res.bind_ok, foldlM_one, rd_lt h1]
      have hpre : (l.take (D * i) ++ (c.drop (D * j)).take k).length = D * i + k := by simp; omega
      rw [List.drop_eq_getElem_cons h2]
      rw [Res.bind_ok, wr_lt (by simp; omega)]
      have := set_mid (l.take (D * i) ++ (c.drop (D * j)).take k) l[D * i + k] c[D * j + k] (l.drop (D * i + k + 1))
      rw [hpre] at this
      rw [this]
      simp only [Res.ok.injEq]
      rw [List.take_succ_eq_append_getElem (by simp; omega)]
      simp [List.append_assoc, Nat.add_assoc]
  exact key D (le_refl _)

theorem setNode_length {D i : Nat} {l v : List R} (hi : D * i + D ≤ l.length) (hv : v.length = D) : (setNode D l i v).length = l.length := by
  simp [setNode, hv]; omega

theorem nodeL_setNode {D i a : Nat} {l v : List R} (hi : i < l.length / D) (ha : a < l.length / D) (hv : v.length = D) :
    nodeL D (setNode D l i v) a = if a = i then v else nodeL D l a := by
  have hi' := in_range hi
  have ha' := in_range ha
  have hti : (l.take (D * i)).length = D * i := by simp; omega
  split
  · rename_i h
    subst h
    rw [nodeL, setNode, List.append_assoc, List.drop_append, hti, List.drop_eq_nil_of_le (by omega)]
    simp [hv]
  · rename_i h
    rcases lt_or_gt_of_ne h with h | h
    · have hle : D * a + D ≤ D * i := by rw [← Nat.mul_succ]; exact Nat.mul_le_mul_left _ h
      rw [nodeL, setNode, List.append_assoc, List.drop_append, hti, show D * a - D * i = 0 by omega, List.drop_zero, List.take_append]
      rw [List.length_drop, hti, show D - (D * i - D * a) = 0 by omega, List.take_zero, List.append_nil, nodeL, List.drop_take, List.take_take]
      congr 1; omega
    · have hle : D * i + D ≤ D * a := by rw [← Nat.mul_succ]; exact Nat.mul_le_mul_left _ h
      rw [nodeL, setNode, List.drop_append, List.length_append, hti, hv, List.drop_eq_nil_of_le (by simp; omega), List.nil_append, List.drop_drop, nodeL]
      congr 2; omega

/-- The nodes after receiving the values `v i` for the nodes `r`. -/
def putAll (D : Nat) (v : Nat → List R) (r : List Nat) (l : List R) : List R := r.foldl (fun l i => setNode D l i (v i)) l

theorem putAll_spec {D : Nat} {v : Nat → List R} {N : Nat} : ∀ (r : List Nat) (l : List R), l.length = N → (∀ i ∈ r, i < N / D) → (∀ i ∈ r, (v i).length = D) →
    (putAll D v r l).length = N ∧ ∀ a, a < N / D → nodeL D (putAll D v r l) a = if a ∈ r then v a else nodeL D l a
  | [], l, hl, _, _ => ⟨hl, fun a _ => by simp [putAll]⟩
  | i :: r, l, hl, hr, hv => by
    have hi := hr i (by simp)
    have hlen : (setNode D l i (v i)).length = N := by rw [setNode_length (in_range (by rw [hl]; exact hi)) (hv i (by simp)), hl]
    obtain ⟨h1, h2⟩ := putAll_spec (v := v) r (setNode D l i (v i)) hlen (fun i hi => hr i (by simp [hi])) (fun i hi => hv i (by simp [hi]))
    refine ⟨h1, fun a ha => ?_⟩
    show nodeL D (putAll D v r (setNode D l i (v i))) a = _
    rw [h2 a ha, nodeL_setNode (by rw [hl]; exact hi) (by rw [hl]; exact ha) (hv i (by simp))]
    by_cases har : a ∈ r
    · simp [har]
    · by_cases hai : a = i
      · subst hai; simp [har]
      · simp [har, hai]

theorem flatMap_nodeL {D : Nat} (v : Nat → List R) : ∀ (r : List Nat) (j : Nat) (hj : j < r.length), (∀ i ∈ r, (v i).length = D) → nodeL D (r.flatMap v) j = v r[j]
  | [], j, hj, _ => by simp at hj
  | i :: r, 0, _, hv => by
    have := hv i (by simp)
    simp [nodeL, this]
  | i :: r, j + 1, hj, hv => by
    have h1 := hv i (by simp)
    have := flatMap_nodeL v r j (by simpa using hj) fun i hi => hv i (by simp [hi])
    rw [nodeL, List.flatMap_cons, List.drop_append, h1, List.drop_eq_nil_of_le (by rw [h1, Nat.mul_succ]; omega), List.nil_append,
      show D * (j + 1) - D = D * j by rw [Nat.mul_succ]; omega]
    simpa [nodeL] using this

theorem unpack_spec {D : Nat} {v : Nat → List R} {r : List Nat} {l : List R} (hr : ∀ i ∈ r, i < l.length / D) (hv : ∀ i ∈ r, (v i).length = D) :
    unpack D (r.flatMap v) r l = .ok (putAll D v r l) := by
  have hc := flatMap_length r hv
  have key : ∀ j, j ≤ r.length → (List.range j).foldlM (fun nodes j => (rd r j).bind fun i => (List.range D).foldlM (fun nodes k => do
      let v ← rd (r.flatMap v) (D * j + k)
      wr nodes (D * i + k) v) nodes) l = .ok (putAll D v (r.take j) l) := by
    intro j
    induction j with
    | zero => intro _; simp [putAll]
    | succ j ih =>
      intro hj
      have hjl : j < r.length := hj
      have hmem := List.getElem_mem hjl
      have hlen := (putAll_spec (v := v) (N := l.length) (r.take j) l rfl (fun i hi => hr i (List.mem_of_mem_take hi)) (fun i hi => hv i (List.mem_of_mem_take hi))).1
      rw [List.range_succ, List.foldlM_append, ih (by omega), Res.bind_eq, Res.bind_ok, foldlM_one, rd_lt hjl, Res.bind_ok]
      rw [writeNode (by rw [hlen]; exact in_range (hr _ hmem)) (by
        rw [hc, ← Nat.mul_succ]; exact Nat.mul_le_mul_left _ hj)]
      rw [flatMap_nodeL v r j hjl hv, List.take_succ_eq_append_getElem hjl, putAll, putAll, List.foldl_append]
      rfl
  have := key r.length (le_refl _)
  rw [List.take_length] at this
  exact this

/-! ### The exchange -/

section
variable {D n : Nat} {mesh : Nat → Tess R} {gid : Nat → Nat → γ}

/-- The processes that have the physical node `g`. -/
def sharers (D n : Nat) (mesh : Nat → Tess R) (gid : Nat → Nat → γ) (g : γ) : Set Nat := {r | r < n ∧ ∃ b, b < numNodes D (mesh r) ∧ gid r b = g}

noncomputable def least (D n : Nat) (mesh : Nat → Tess R) (gid : Nat → Nat → γ) (g : γ) : Nat := sInf (sharers D n mesh gid g)

/-- The node of process `r` that stands for `g`. -/
noncomputable def locOf (D : Nat) (mesh : Nat → Tess R) (gid : Nat → Nat → γ) (r : Nat) (g : γ) : Nat := sInf {b | b < numNodes D (mesh r) ∧ gid r b = g}

/-- The coordinates of `g` on the lowest-ranked process that has it. -/
noncomputable def target (D n : Nat) (mesh : Nat → Tess R) (gid : Nat → Nat → γ) (g : γ) : List R :=
  node D (mesh (least D n mesh gid g)) (locOf D mesh gid (least D n mesh gid g) g)

theorem locOf_eq (h : Sharing D n mesh gid) {p a : Nat} (hp : p < n) (ha : a < numNodes D (mesh p)) : locOf D mesh gid p (gid p a) = a := by
  have hmem : a ∈ {b | b < numNodes D (mesh p) ∧ gid p b = gid p a} := ⟨ha, rfl⟩
  have := Nat.sInf_mem ⟨a, hmem⟩
  exact h.inj p hp _ _ this.1 ha this.2

theorem least_spec {p a : Nat} (hp : p < n) (ha : a < numNodes D (mesh p)) :
    least D n mesh gid (gid p a) ∈ sharers D n mesh gid (gid p a) ∧ ∀ r ∈ sharers D n mesh gid (gid p a), least D n mesh gid (gid p a) ≤ r :=
  ⟨Nat.sInf_mem ⟨p, hp, a, ha, rfl⟩, fun _ hr => Nat.sInf_le hr⟩

theorem getD_mem_list {α : Type} {l : List α} {i : Nat} (h : i < l.length) (d : α) : l.getD i d ∈ l := by simp [h]

theorem own_least (h : Sharing D n mesh gid) {p a : Nat} (hp : p < n) (ha : a < numNodes D (mesh p)) :
    ownF (mesh p) p (mesh p).neighborDomains.length a = least D n mesh gid (gid p a) := by
  obtain ⟨h1, h2⟩ := least_spec (gid := gid) hp ha
  apply le_antisymm
  · obtain ⟨hq, b, hb, hg⟩ := h1
    by_cases hpq : least D n mesh gid (gid p a) = p
    · rw [hpq]; exact ownF_le _ _ _ _
    · obtain ⟨i, hi, hai⟩ := h.complete p _ hp hq (Ne.symm hpq) a b ha hb hg.symm
      obtain ⟨hil, hiq⟩ := List.getElem?_eq_some_iff.1 hi
      have := ownF_le' (mesh p) p a _ i hil hai
      rwa [List.getD_eq_getElem?_getD, hi, Option.getD_some] at this
  · rcases ownF_mem (mesh p) p a (mesh p).neighborDomains.length with h3 | ⟨j, hj, haj, h3⟩
    · rw [h3]; exact h2 p ⟨hp, a, ha, rfl⟩
    · rw [h3]
      have hq := getD_mem_list hj 0
      have hql := (h.lt p hp _ hq).1
      apply h2
      refine ⟨hql, ?_⟩
      obtain ⟨k, hk, hkp⟩ := List.getElem_of_mem (h.sym p hp _ hq)
      have hag := h.agree p hp j ((mesh p).neighborDomains.getD j 0) k (by simp [hj]) (by rw [List.getElem?_eq_getElem hk, hkp])
      have : gid p a ∈ ((mesh ((mesh p).neighborDomains.getD j 0)).sharedNodes.getD k []).map (gid ((mesh p).neighborDomains.getD j 0)) := by
        rw [← hag]; exact List.mem_map_of_mem haj
      obtain ⟨b, hb, hbg⟩ := List.mem_map.1 this
      exact ⟨b, h.nodes _ hql _ (getD_mem_list (by rw [h.len _ hql]; exact hk) []) b hb, hbg⟩

theorem map_filter_gid {p : Nat} {l : List Nat} {P : γ → Bool} {Q : Nat → Bool} (h : ∀ a ∈ l, Q a = P (gid p a)) :
    (l.filter Q).map (gid p) = (l.map (gid p)).filter P := by
  rw [List.filter_map]
  congr 1
  exact List.filter_congr h

/-- What `q` sends to `p` is what `p` expects from `q`. -/
theorem snd_rcv (h : Sharing D n mesh gid) {p q k j : Nat} (hp : p < n) (hk : (mesh p).neighborDomains[k]? = some q) (hj : (mesh q).neighborDomains[j]? = some p) :
    (sndL (mesh q) q j).map (gid q) = (rcvL (mesh p) p k).map (gid p) := by
  have hq := (h.lt p hp q (List.mem_of_getElem? hk)).1
  obtain ⟨hkl, hkq⟩ := List.getElem?_eq_some_iff.1 hk
  obtain ⟨hjl, hjp⟩ := List.getElem?_eq_some_iff.1 hj
  have e : (mesh p).neighborDomains.getD k 0 = q := by simp [hkl, hkq]
  rw [sndL, rcvL, e]
  rw [map_filter_gid (p := q) (P := fun g => decide (least D n mesh gid g = q)) (by
    intro a ha
    rw [own_least h hq (h.nodes q hq _ (getD_mem_list (by rw [h.len q hq]; exact hjl) []) a ha)])]
  rw [map_filter_gid (p := p) (P := fun g => decide (least D n mesh gid g = q)) (by
    intro a ha
    rw [own_least h hp (h.nodes p hp _ (getD_mem_list (by rw [h.len p hp]; exact hkl) []) a ha)])]
  rw [h.agree p hp k q j hk hj]

/-- The nodes of process `p` after the messages of its first `k` neighbours. -/
noncomputable def nodesAt (D n : Nat) (mesh : Nat → Tess R) (gid : Nat → Nat → γ) (p : Nat) : Nat → List R
  | 0 => (mesh p).nodes
  | k + 1 => putAll D (fun i => target D n mesh gid (gid p i)) (rcvL (mesh p) p k) (nodesAt D n mesh gid p k)

theorem rcv_lt (h : Sharing D n mesh gid) {p k : Nat} (hp : p < n) (hk : k < (mesh p).neighborDomains.length) {i : Nat} (hi : i ∈ rcvL (mesh p) p k) :
    i < numNodes D (mesh p) :=
  h.nodes p hp _ (getD_mem_list (by rw [h.len p hp]; exact hk) []) i (List.mem_filter.1 hi).1

theorem target_length {p a : Nat} (hp : p < n) (ha : a < numNodes D (mesh p)) : (target D n mesh gid (gid p a)).length = D := by
  obtain ⟨⟨hq, b, hb, hg⟩, _⟩ := least_spec (gid := gid) hp ha
  have hmem : b ∈ {b | b < numNodes D (mesh (least D n mesh gid (gid p a))) ∧ gid (least D n mesh gid (gid p a)) b = gid p a} := ⟨hb, hg⟩
  exact nodeL_length (Nat.sInf_mem ⟨b, hmem⟩).1

theorem nodesAt_spec (h : Sharing D n mesh gid) {p : Nat} (hp : p < n) : ∀ k, k ≤ (mesh p).neighborDomains.length →
    (nodesAt D n mesh gid p k).length = (mesh p).nodes.length ∧ ∀ a, a < numNodes D (mesh p) →
      nodeL D (nodesAt D n mesh gid p k) a = if ∃ j, j < k ∧ a ∈ rcvL (mesh p) p j then target D n mesh gid (gid p a) else node D (mesh p) a := by
  intro k
  induction k with
  | zero => intro _; exact ⟨rfl, fun a _ => by simp [nodesAt, nodeL, node]⟩
  | succ k ih =>
    intro hk
    obtain ⟨h1, h2⟩ := ih (by omega)
    obtain ⟨h3, h4⟩ := putAll_spec (D := D) (v := fun i => target D n mesh gid (gid p i)) (N := (mesh p).nodes.length) (rcvL (mesh p) p k) (nodesAt D n mesh gid p k) h1
      (fun i hi => rcv_lt h hp hk hi) (fun i hi => target_length hp (rcv_lt h hp hk hi))
    refine ⟨h3, fun a ha => ?_⟩
    rw [nodesAt, h4 a ha, h2 a ha]
    by_cases hak : a ∈ rcvL (mesh p) p k
    · rw [if_pos hak, if_pos ⟨k, by omega, hak⟩]
    · rw [if_neg hak]
      by_cases hex : ∃ j, j < k ∧ a ∈ rcvL (mesh p) p j
      · obtain ⟨j, hj, haj⟩ := hex
        rw [if_pos ⟨j, hj, haj⟩, if_pos ⟨j, by omega, haj⟩]
      · rw [if_neg hex, if_neg]
        rintro ⟨j, hj, haj⟩
        rcases Nat.lt_succ_iff_lt_or_eq.1 hj with h5 | rfl
        · exact hex ⟨j, h5, haj⟩
        · exact hak haj

/-- At the end every node has the coordinates of its lowest-ranked holder. -/
theorem nodesAt_final (h : Sharing D n mesh gid) {p a : Nat} (hp : p < n) (ha : a < numNodes D (mesh p)) :
    nodeL D (nodesAt D n mesh gid p (mesh p).neighborDomains.length) a = target D n mesh gid (gid p a) := by
  rw [(nodesAt_spec h hp _ (le_refl _)).2 a ha]
  split
  · rfl
  · rename_i hno
    have hown := own_least h hp ha
    rcases ownF_mem (mesh p) p a (mesh p).neighborDomains.length with h1 | ⟨j, hj, haj, h1⟩
    · rw [h1] at hown
      rw [target, ← hown, locOf_eq h hp ha]
    · exfalso
      apply hno
      refine ⟨j, hj, List.mem_filter.2 ⟨haj, by simpa using h1⟩⟩

theorem nodeFits (dbg : Bool) (zero : R) (h : Sharing D n mesh gid) (hne : ∀ p, p < n → (mesh p).neighborDomains ≠ []) :
    Fits (nodeProg dbg D zero mesh) n (fun p => (List.range (mesh p).neighborDomains.length).map (msgOf D (mesh p) p))
      (fun p k => ⟨nodesAt D n mesh gid p k, (List.range (mesh p).neighborDomains.length).map (rcvL (mesh p) p)⟩) := by
  refine ⟨fun p hp q hq => (h.lt p hp q hq).1, h.sym, h.nodup, hne, ?_, ?_, ?_⟩
  · intro p hp
    have hpost : ∀ k ∈ List.range (mesh p).neighborDomains.length,
        postNode dbg D p (mesh p) ((List.range (numNodes D (mesh p))).map (ownF (mesh p) p (mesh p).neighborDomains.length)) k =
          .ok ((fun k => (msgOf D (mesh p) p k, rcvL (mesh p) p k)) k) := by
      intro k hk
      have hk' := List.mem_range.1 hk
      exact postNode_spec dbg hk' (h.len p hp) (h.lt p hp _ (getD_mem_list hk' 0)).2 (h.nodes p hp) (h.small p hp)
    simp only [nodeProg, ownNodes_spec dbg (h.len p hp) (h.nodes p hp), Res.bind_eq, Res.bind_ok, mapM_pure _ hpost, List.map_map, Res.pure_eq]
    rfl
  · intro p hp; simp [nodeProg]
  · intro p hp k q j sz d hk hj hm
    change (mesh p).neighborDomains[k]? = some q at hk
    change (mesh q).neighborDomains[j]? = some p at hj
    have hq := (h.lt p hp q (List.mem_of_getElem? hk)).1
    obtain ⟨hkl, hkq⟩ := List.getElem?_eq_some_iff.1 hk
    obtain ⟨hjl, hjp⟩ := List.getElem?_eq_some_iff.1 hj
    simp only [List.getElem?_map, List.getElem?_range hjl, Option.map_some, Option.some.injEq] at hm
    have hsr := snd_rcv h hp hk hj
    have hlen : (sndL (mesh q) q j).length = (rcvL (mesh p) p k).length := by simpa using congrArg List.length hsr
    have hrd : rd ((List.range (mesh p).neighborDomains.length).map (rcvL (mesh p) p)) k = .ok (rcvL (mesh p) p k) := by
      rw [rd_lt (by simpa using hkl)]; simp
    have hmsg := hm
    rw [msgOf, Prod.mk.injEq] at hm
    obtain ⟨rfl, hd⟩ := hm
    have hd0 : d = none ↔ rcvL (mesh p) p k = [] := by
      have hnil : rcvL (mesh p) p k = [] ↔ sndL (mesh q) q j = [] := by rw [← List.length_eq_zero_iff, ← hlen, List.length_eq_zero_iff]
      rw [hnil, ← hd]
      by_cases h0 : sndL (mesh q) q j = [] <;> simp [h0]
    refine ⟨?_, ?_, ?_⟩
    · simp only [nodeProg, hrd, Res.bind_eq, Res.bind_ok, Res.pure_eq]
      rw [Res.assert_true dbg (by rw [hlen]), Res.bind_ok]
      congr 1
      cases d with
      | none => simp [hd0.1 rfl]
      | some c =>
        have : rcvL (mesh p) p k ≠ [] := fun h0 => by cases hd0.2 h0
        simp [List.length_pos_iff, this]
    · intro h0
      simp only [nodesAt, hd0.1 h0, putAll, List.foldl_nil]
    · intro c hc
      have hne' : sndL (mesh q) q j ≠ [] := by
        intro h0; rw [if_pos h0, hc] at hd; cases hd
      rw [if_neg hne', hc, Option.some.injEq] at hd
      have hval : c = (rcvL (mesh p) p k).flatMap fun i => target D n mesh gid (gid p i) := by
        rw [← hd]
        have e1 : (sndL (mesh q) q j).flatMap (node D (mesh q)) = ((sndL (mesh q) q j).map (gid q)).flatMap (target D n mesh gid) := by
          rw [List.flatMap_map]
          apply List.flatMap_congr
          intro b hb
          have hbl : b < numNodes D (mesh q) := h.nodes q hq _ (getD_mem_list (by rw [h.len q hq]; exact hjl) []) b (List.mem_filter.1 hb).1
          have hown : least D n mesh gid (gid q b) = q := by
            rw [← own_least h hq hbl]; simpa using (List.mem_filter.1 hb).2
          rw [target, hown, locOf_eq h hq hbl]
        rw [e1, hsr, List.flatMap_map]
      have hvl : ∀ i ∈ rcvL (mesh p) p k, (target D n mesh gid (gid p i)).length = D := fun i hi => target_length hp (rcv_lt h hp hkl hi)
      have hcl : c.length = D * (rcvL (mesh p) p k).length := by rw [hval]; exact flatMap_length _ hvl
      simp only [nodeProg, hrd, Res.bind_eq, Res.bind_ok, Res.pure_eq]
      rw [if_neg (by omega), hcl, Nat.sub_self, List.replicate_zero, List.append_nil, hval]
      have hnl := (nodesAt_spec h hp k hkl.le).1
      rw [unpack_spec (by intro i hi; rw [hnl]; exact rcv_lt h hp hkl hi) hvl, Res.bind_ok]
      rfl
end
end Verif.Exch
