import Verif.Model.Internal
import Verif.Spec.Internal
import Verif.Proofs.DeleteCells
import Mathlib.Data.List.Perm.Basic
import Mathlib.Data.List.Nodup
import Mathlib.Data.List.Perm.Subperm
import Mathlib.Tactic.Ring
import Mathlib.Tactic.Linarith
namespace Verif.Internal
open Verif

/-! ### Inverse map and use counts -/

/-- Edge `i` touches node `x`. -/
def touches (edges : List Edge) (x : Int) (i : Nat) : Bool :=
  match edges[i]? with
  | some e => decide (e.1 = x ∨ e.2 = x)
  | none => false

/-- Increasing list of the edges at `x` that are not in `res`. -/
def inc (edges : List Edge) (res : List Nat) (x : Int) : List Nat :=
  (List.range edges.length).filter fun i => touches edges x i && decide (i ∉ res)

theorem touches_iff {edges : List Edge} {x : Int} {i : Nat} {e : Edge} (h : edges[i]? = some e) :
    touches edges x i = true ↔ (e.1 = x ∨ e.2 = x) := by
  simp [touches, h]

theorem mem_inc {edges : List Edge} {res : List Nat} {x : Int} {i : Nat} :
    i ∈ inc edges res x ↔ touches edges x i = true ∧ i ∉ res := by
  simp only [inc, List.mem_filter, List.mem_range, Bool.and_eq_true, decide_eq_true_eq]
  constructor
  · exact fun h => h.2
  · intro h
    refine ⟨?_, h⟩
    by_contra hc
    have : edges[i]? = none := by simp; omega
    simp [touches, this] at h

theorem inc_nodup (edges : List Edge) (res : List Nat) (x : Int) : (inc edges res x).Nodup :=
  List.nodup_range.filter _

/-- Erasing an index from both its nodes is adding it to the visited list. -/
theorem erase_inc {edges : List Edge} {res : List Nat} {n2e : N2E} {i : Nat} {e : Edge} (h : ∀ x, n2e x = inc edges res x)
    (he : edges[i]? = some e) (x : Int) : n2eErase (n2eErase n2e e.1 i) e.2 i x = inc edges (res ++ [i]) x := by
  have key : inc edges (res ++ [i]) x = (inc edges res x).filter (· ≠ i) := by
    simp only [inc, List.filter_filter]
    apply List.filter_congr
    intro j _
    by_cases h1 : j = i <;> simp [h1]
  have nt : ¬ (e.1 = x ∨ e.2 = x) → (inc edges res x).filter (· ≠ i) = inc edges res x := by
    intro hx
    apply List.filter_eq_self.2
    intro j hj
    simp only [ne_eq, decide_not, Bool.not_eq_eq_eq_not, Bool.not_true, decide_eq_false_iff_not]
    rintro rfl
    exact hx ((touches_iff he).1 (mem_inc.1 hj).1)
  rw [key]
  simp only [n2eErase, h]
  by_cases h2 : x = e.2
  · rw [if_pos h2]
    by_cases h1 : x = e.1
    · rw [if_pos h1, List.filter_filter]; simp
    · rw [if_neg h1]
  · rw [if_neg h2]
    by_cases h1 : x = e.1
    · rw [if_pos h1]
    · rw [if_neg h1, nt]
      rintro (h | h)
      · exact h1 h.symm
      · exact h2 h.symm

theorem invertEdges_spec (all : List Edge) (hd : ∀ e ∈ all, e.1 ≠ e.2) : ∀ (rest pre : List Edge) (s : N2E × (Int → Nat)), all = pre ++ rest →
    (∀ x, s.1 x = (List.range pre.length).filter (touches all x)) → (∀ x, s.2 x = (s.1 x).length) →
    (∀ x, (invertEdges pre.length rest s).1 x = (List.range all.length).filter (touches all x)) ∧
    (∀ x, (invertEdges pre.length rest s).2 x = ((invertEdges pre.length rest s).1 x).length)
  | [], pre, s, ha, h1, h2 => by simp at ha; subst ha; exact ⟨h1, h2⟩
  | e :: rest, pre, s, ha, h1, h2 => by
    have hget : all[pre.length]? = some e := by simp [ha]
    have hne : e.1 ≠ e.2 := hd e (by simp [ha])
    have hnot : ∀ x, pre.length ∉ s.1 x := by intro x; simp [h1]
    have ha' : all = (pre ++ [e]) ++ rest := by simp [ha]
    have hlen : (pre ++ [e]).length = pre.length + 1 := by simp
    have step : ∀ x, n2eInsert (n2eInsert s.1 e.1 pre.length) e.2 pre.length x =
        s.1 x ++ if touches all x pre.length then [pre.length] else [] := by
      intro x
      simp only [n2eInsert, touches, hget]
      by_cases c1 : x = e.1
      · by_cases c2 : x = e.2
        · exact absurd (c1.symm.trans c2) hne
        · simp [c1, hne, hnot]
      · by_cases c2 : x = e.2
        · simp [c2, Ne.symm hne, hnot]
        · simp [c1, c2, show ¬ (e.1 = x ∨ e.2 = x) by rintro (h | h); exact c1 h.symm; exact c2 h.symm]
    have := invertEdges_spec all hd rest (pre ++ [e])
      (n2eInsert (n2eInsert s.1 e.1 pre.length) e.2 pre.length, bump (bump s.2 e.1) e.2) ha' ?_ ?_
    · rw [hlen] at this; simpa [invertEdges] using this
    · intro x
      rw [hlen, List.range_succ, List.filter_append, ← h1]
      simp only [step]
      congr 1
      by_cases ht : touches all x pre.length <;> simp [ht]
    · intro x
      simp only [step, List.length_append, ← h2, touches, hget, bump]
      by_cases c1 : x = e.1
      · by_cases c2 : x = e.2
        · exact absurd (c1.symm.trans c2) hne
        · simp [c1, hne]
      · by_cases c2 : x = e.2
        · simp [c2, Ne.symm hne]
        · simp [c1, c2, show ¬ (e.1 = x ∨ e.2 = x) by rintro (h | h); exact c1 h.symm; exact c2 h.symm]

theorem invert_top {edges : List Edge} (hd : ∀ e ∈ edges, e.1 ≠ e.2) :
    (∀ x, (invertEdges 0 edges (fun _ => [], fun _ => 0)).1 x = inc edges [] x) ∧
    (∀ x, (invertEdges 0 edges (fun _ => [], fun _ => 0)).2 x = (inc edges [] x).length) := by
  obtain ⟨h1, h2⟩ := invertEdges_spec edges hd edges [] (fun _ => [], fun _ => 0) (by simp) (by simp) (by simp)
  simp only [List.length_nil] at h1 h2
  have h3 : ∀ x, (invertEdges 0 edges (fun _ => [], fun _ => 0)).1 x = inc edges [] x := by
    intro x; rw [h1]; simp [inc]
  exact ⟨h3, fun x => by rw [h2, h3]⟩

/-! ### Hanging edges -/

/-- Edge `i` has an end used once. -/
def hangs (use : Int → Nat) (edges : List Edge) (i : Nat) : Bool :=
  match edges[i]? with
  | some e => decide (use e.1 = 1 ∨ use e.2 = 1)
  | none => false

/-- The end of edge `i` that is used once. -/
def hangNode (use : Int → Nat) (edges : List Edge) (i : Nat) : Int :=
  match edges[i]? with
  | some e => if use e.1 = 1 then e.1 else e.2
  | none => 0

theorem findHanging_spec (dbg : Bool) (use : Int → Nat) (all : List Edge)
    (ha : ∀ e ∈ all, (use e.1 = 1 ∨ use e.2 = 1) → ((use e.1 = 1 ∧ use e.2 = 2) ∨ (use e.1 = 2 ∧ use e.2 = 1))) :
    ∀ (rest : List Edge) (i : Nat) (s : List Nat × N2E × List Int), all.drop i = rest → i ≤ all.length →
    s.1 = (List.range i).filter (hangs use all) → s.2.2 = s.1.map (hangNode use all) → (∀ x, s.2.1 x = inc all s.1 x) →
    ∃ n2e, findHanging dbg use i rest s =
      .ok ((List.range all.length).filter (hangs use all), n2e, ((List.range all.length).filter (hangs use all)).map (hangNode use all)) ∧
      ∀ x, n2e x = inc all ((List.range all.length).filter (hangs use all)) x
  | [], i, s, hr, hil, h1, h2, h3 => by
    have hi : i = all.length := by simp at hr; omega
    subst hi
    refine ⟨s.2.1, ?_, ?_⟩
    · simp only [findHanging, ← h1, ← h2]
    · intro x; rw [h3, h1]
  | e :: rest, i, s, hr, hil, h1, h2, h3 => by
    have hlt : i < all.length := by
      by_contra hc
      rw [List.drop_eq_nil_of_le (by omega)] at hr; cases hr
    have hget : all[i]? = some e := by
      have := congrArg (·[0]?) hr
      simpa using this
    have hr' : all.drop (i + 1) = rest := by
      have : all.drop (i + 1) = (all.drop i).drop 1 := by rw [List.drop_drop]
      rw [this, hr]; simp
    have hmem : e ∈ all := List.mem_of_getElem? hget
    simp only [findHanging]
    by_cases hh : use e.1 = 1 ∨ use e.2 = 1
    · rw [if_pos hh, Res.bind_eq, Res.assert_true dbg (ha e hmem hh), Res.bind_ok]
      have hhi : hangs use all i = true := by simp [hangs, hget, hh]
      have hf : (List.range (i + 1)).filter (hangs use all) = s.1 ++ [i] := by
        rw [List.range_succ, List.filter_append, ← h1]; simp [hhi]
      refine findHanging_spec dbg use all ha rest (i + 1) _ hr' (by omega) hf.symm ?_ ?_
      · simp only [List.map_append, h2, List.map_cons, List.map_nil, hangNode, hget]
      · intro x; exact erase_inc h3 hget x
    · rw [if_neg hh]
      have hhi : hangs use all i = false := by simp [hangs, hget]; simpa using hh
      refine findHanging_spec dbg use all ha rest (i + 1) _ hr' (by omega) ?_ h2 h3
      rw [List.range_succ, List.filter_append, ← h1]; simp [hhi]

/-! ### Cycles -/

/-- The edges form one cycle: corner `a` is `v a`, the side from `v a` to `v (a+1)` is edge `p a`, everything modulo the number of edges. -/
structure Cyc (edges : List Edge) (v : Int → Int) (p : Int → Nat) : Prop where
  three : 3 ≤ edges.length
  vinj : ∀ a b, v a = v b ↔ (edges.length : Int) ∣ a - b
  pinj : ∀ a b, p a = p b ↔ (edges.length : Int) ∣ a - b
  edge : ∀ a, ∃ e, edges[p a]? = some e ∧ Joins e (v a) (v (a + 1))

theorem dvd_small {n : Nat} {d : Int} (h : (n : Int) ∣ d) (h1 : -(n : Int) < d) (h2 : d < n) : d = 0 := by
  obtain ⟨k, rfl⟩ := h
  rcases Int.lt_trichotomy k 0 with hk | hk | hk
  · exfalso
    have : (n : Int) * k ≤ (n : Int) * (-1) := Int.mul_le_mul_of_nonneg_left (by omega) (by omega)
    omega
  · simp [hk]
  · exfalso
    have : (n : Int) * 1 ≤ (n : Int) * k := Int.mul_le_mul_of_nonneg_left (by omega) (by omega)
    omega

namespace Cyc
variable {edges : List Edge} {v : Int → Int} {p : Int → Nat}

theorem plt (h : Cyc edges v p) (a : Int) : p a < edges.length := by
  obtain ⟨e, he, _⟩ := h.edge a
  exact (List.getElem?_eq_some_iff.1 he).1

theorem perm_range (h : Cyc edges v p) : ((List.range edges.length).map fun k => p (k : Nat)).Perm (List.range edges.length) := by
  have hnd : ((List.range edges.length).map fun k => p (k : Nat)).Nodup := by
    apply List.Nodup.map_on _ List.nodup_range
    intro x hx y hy hxy
    simp only [List.mem_range] at hx hy
    have := dvd_small ((h.pinj _ _).1 hxy) (by omega) (by omega)
    omega
  apply (List.subperm_of_subset hnd ?_).perm_of_length_le (by simp)
  intro i hi
  obtain ⟨k, _, rfl⟩ := List.mem_map.1 hi
  simpa using h.plt _

theorem surj (h : Cyc edges v p) {i : Nat} (hi : i < edges.length) : ∃ k : Nat, k < edges.length ∧ p k = i := by
  have := h.perm_range.mem_iff.2 (List.mem_range.2 hi)
  obtain ⟨k, hk, rfl⟩ := List.mem_map.1 this
  exact ⟨k, by simpa using hk, rfl⟩

theorem v_succ_ne (h : Cyc edges v p) (a : Int) : v a ≠ v (a + 1) := by
  intro hc
  have h3 := h.three
  have := dvd_small ((h.vinj _ _).1 hc) (by omega) (by omega)
  omega

theorem noloop (h : Cyc edges v p) : ∀ e ∈ edges, e.1 ≠ e.2 := by
  intro e he
  obtain ⟨i, hi⟩ := List.getElem?_of_mem he
  obtain ⟨k, hk, rfl⟩ := h.surj (List.getElem?_eq_some_iff.1 hi).1
  obtain ⟨e', he', hj⟩ := h.edge k
  rw [hi] at he'; cases he'
  have := h.v_succ_ne k
  rcases hj with rfl | rfl
  · exact this
  · exact Ne.symm this

theorem touches_iff (h : Cyc edges v p) (a : Int) (i : Nat) : touches edges (v a) i = true ↔ i = p a ∨ i = p (a - 1) := by
  constructor
  · intro ht
    have hi : i < edges.length := by
      by_contra hc
      have : edges[i]? = none := by simp; omega
      simp [touches, this] at ht
    obtain ⟨k, hk, rfl⟩ := h.surj hi
    obtain ⟨e, he, hj⟩ := h.edge k
    rw [Internal.touches_iff he] at ht
    have : v k = v a ∨ v (k + 1) = v a := by
      rcases hj with rfl | rfl <;> simp only at ht
      · exact ht
      · exact ht.symm
    rcases this with h1 | h1
    · left; exact (h.pinj _ _).2 ((h.vinj _ _).1 h1)
    · right
      apply (h.pinj _ _).2
      have := (h.vinj _ _).1 h1
      have e2 : (k : Int) - (a - 1) = k + 1 - a := by ring
      rw [e2]; exact this
  · rintro (rfl | rfl)
    · obtain ⟨e, he, hj⟩ := h.edge a
      rw [Internal.touches_iff he]
      rcases hj with rfl | rfl <;> simp
    · obtain ⟨e, he, hj⟩ := h.edge (a - 1)
      rw [Internal.touches_iff he]
      have : a - 1 + 1 = a := by ring
      rw [this] at hj
      rcases hj with rfl | rfl <;> simp

theorem shift (h : Cyc edges v p) (k : Int) : Cyc edges (fun a => v (a + k)) (fun a => p (a + k)) := by
  refine ⟨h.three, ?_, ?_, ?_⟩
  · intro a b; rw [h.vinj]; have : a + k - (b + k) = a - b := by ring
    rw [this]
  · intro a b; rw [h.pinj]; have : a + k - (b + k) = a - b := by ring
    rw [this]
  · intro a
    have := h.edge (a + k)
    have e : a + k + 1 = a + 1 + k := by ring
    rw [e] at this; exact this

theorem reverse (h : Cyc edges v p) : Cyc edges (fun a => v (1 - a)) (fun a => p (-a)) := by
  refine ⟨h.three, ?_, ?_, ?_⟩
  · intro a b; rw [h.vinj]; have : 1 - a - (1 - b) = -(a - b) := by ring
    rw [this, Int.dvd_neg]
  · intro a b; rw [h.pinj]; have : -a - -b = -(a - b) := by ring
    rw [this, Int.dvd_neg]
  · intro a
    obtain ⟨e, he, hj⟩ := h.edge (-a)
    refine ⟨e, he, ?_⟩
    have e1 : 1 - (a + 1) = -a := by ring
    have e2 : 1 - a = -a + 1 := by ring
    rw [e1, e2]
    exact hj.symm

/-- Start from edge 0 in its own direction. -/
theorem normal (h : Cyc edges v p) : ∃ v' p', Cyc edges v' p' ∧ p' 0 = 0 ∧ edges[0]? = some (v' 0, v' 1) := by
  obtain ⟨k, hk, hk0⟩ := h.surj (i := 0) (by have := h.three; omega)
  have h1 := h.shift k
  obtain ⟨e, he, hj⟩ := h1.edge 0
  simp only [Int.zero_add, hk0] at he hj
  rcases hj with rfl | rfl
  · exact ⟨_, _, h1, by simp [hk0], by rw [he]; simp⟩
  · exact ⟨_, _, h1.reverse, by simp [hk0], by rw [he]; simp⟩

/-- The order of the edges from `p 0` on. -/
def ord (p : Int → Nat) (k : Nat) : List Nat := (List.range k).map fun (i : Nat) => p i

theorem ord_succ (p : Int → Nat) (k : Nat) : ord p (k + 1) = ord p k ++ [p k] := by simp [ord, List.range_succ]

theorem mem_ord (h : Cyc edges v p) {k m : Nat} (hk : k ≤ edges.length) (hm : m < edges.length) : p m ∈ ord p k ↔ m < k := by
  simp only [ord, List.mem_map, List.mem_range]
  constructor
  · rintro ⟨i, hi, he⟩
    have := dvd_small ((h.pinj _ _).1 he) (by omega) (by omega)
    omega
  · intro hmk; exact ⟨m, hmk, rfl⟩

theorem inc_walk (h : Cyc edges v p) {k : Nat} (h1 : 1 ≤ k) (hk : k < edges.length) : inc edges (ord p k) (v k) = [p k] := by
  apply List.perm_singleton.1
  rw [List.perm_ext_iff_of_nodup (inc_nodup _ _ _) (by simp)]
  intro i
  rw [mem_inc, h.touches_iff, List.mem_singleton]
  have hk1 : p ((k : Int) - 1) ∈ ord p k := by
    have : (k : Int) - 1 = ((k - 1 : Nat) : Int) := by omega
    rw [this, h.mem_ord (by omega) (by omega)]; omega
  constructor
  · rintro ⟨rfl | rfl, h2⟩
    · rfl
    · exact absurd hk1 h2
  · rintro rfl
    refine ⟨Or.inl rfl, ?_⟩
    rw [h.mem_ord (by omega) hk]; omega

theorem walk_from (h : Cyc edges v p) (dbg : Bool) : ∀ (m k : Nat) (n2e : N2E), k + m = edges.length → 1 ≤ k →
    (∀ x, n2e x = inc edges (ord p k) x) → walkEdges dbg edges m (ord p k) n2e (v k) = .ok (ord p edges.length)
  | 0, k, n2e, hm, h1, hn => by
    have : k = edges.length := by omega
    subst this; rfl
  | m + 1, k, n2e, hm, h1, hn => by
    have hk : k < edges.length := by omega
    have hi : n2e (v k) = [p k] := by rw [hn, h.inc_walk h1 hk]
    obtain ⟨e, he, hj⟩ := h.edge k
    have hlast : (if e.1 = v k then e.2 else e.1) = v ((k + 1 : Nat) : Int) := by
      push_cast
      rcases hj with rfl | rfl
      · simp
      · have := h.v_succ_ne k
        simp [Ne.symm this]
    simp only [walkEdges, hi, List.length_singleton, gt_iff_lt, Nat.zero_lt_one, Res.assert_true dbg, Res.bind_eq, Res.bind_ok, rd_eq_ok.2 he,
      show rd [p k] 0 = .ok (p k) from rfl, hlast, ← ord_succ]
    refine walk_from h dbg m (k + 1) _ (by omega) (by omega) ?_
    intro x
    rw [ord_succ]; exact erase_inc hn he x

/-- The first step, from `v 0`, when edge `p 0` is number 0. -/
theorem walk_all (h : Cyc edges v p) (dbg : Bool) (h0 : p 0 = 0) {n2e : N2E} (hn : ∀ x, n2e x = inc edges [] x) :
    walkEdges dbg edges edges.length [] n2e (v 0) = .ok (ord p edges.length) := by
  have h3 := h.three
  obtain ⟨m, hm⟩ : ∃ m, edges.length = m + 1 := ⟨edges.length - 1, by omega⟩
  have h0m : 0 ∈ inc edges [] (v 0) := by
    rw [mem_inc, h.touches_iff]; simp [h0]
  have hhd : ∃ t, n2e (v 0) = 0 :: t := by
    rw [hn]
    unfold inc at h0m ⊢
    rw [hm, List.range_succ_eq_map, List.filter_cons] at h0m ⊢
    by_cases hc : (touches edges (v 0) 0 && decide (0 ∉ ([] : List Nat))) = true
    · rw [if_pos hc]; exact ⟨_, rfl⟩
    · rw [if_neg hc] at h0m; simp at h0m
  obtain ⟨t, ht⟩ := hhd
  obtain ⟨e, he, hj⟩ := h.edge 0
  rw [h0] at he
  have hlast : (if e.1 = v 0 then e.2 else e.1) = v ((1 : Nat) : Int) := by
    rcases hj with rfl | rfl
    · simp
    · have := h.v_succ_ne 0
      simp only [Int.zero_add] at this
      simp [Ne.symm this]
  have hw := h.walk_from dbg m 1 (n2eErase (n2eErase n2e e.1 0) e.2 0) (by omega) (by omega) (by
    intro x
    have := erase_inc hn he x
    rw [this]
    simp [ord, h0])
  have ho : ord p 1 = [0] := by simp [ord, h0]
  rw [ho] at hw
  rw [hm] at hw ⊢
  simp only [walkEdges, ht, List.length_cons, gt_iff_lt, Nat.zero_lt_succ, Res.assert_true dbg, Res.bind_eq, Res.bind_ok, rd_eq_ok.2 he, hlast,
    show rd (0 :: t) 0 = .ok 0 from rfl, List.nil_append]
  exact hw

/-- The sign the `k`-th edge gets. -/
def sgnd (edges : List Edge) (v : Int → Int) (p : Int → Nat) (k : Int) : Int :=
  if edges[p k]? = some (v k, v (k + 1)) then (p k : Int) else flip (p k)

theorem orient_from (h : Cyc edges v p) (dbg : Bool) : ∀ (m k : Nat), k + m = edges.length →
    orientEdges dbg edges ((List.range' k m).map fun (i : Nat) => p i) (v k) = .ok ((List.range' k m).map fun (i : Nat) => sgnd edges v p i)
  | 0, k, _ => by simp [orientEdges]
  | m + 1, k, hk => by
    have ih := orient_from h dbg m (k + 1) (by omega)
    obtain ⟨e, he, hj⟩ := h.edge k
    have hne := h.v_succ_ne k
    have hcast : ((k + 1 : Nat) : Int) = k + 1 := by push_cast; rfl
    rw [hcast] at ih
    simp only [List.range'_succ, List.map_cons, orientEdges, rd_eq_ok.2 he, Res.bind_eq, Res.bind_ok]
    rcases hj with rfl | rfl
    · simp [ih, sgnd, he]
    · simp only [Ne.symm hne, false_or, Res.assert_true dbg, Res.bind_ok, if_false, ih, Res.pure_eq, sgnd, he]
      rw [if_neg]
      simp [Ne.symm hne]

theorem directed_sgnd (h : Cyc edges v p) (k : Int) : directed edges (sgnd edges v p k) = some (v k, v (k + 1)) := by
  obtain ⟨e, he, hj⟩ := h.edge k
  unfold sgnd
  by_cases hc : edges[p k]? = some (v k, v (k + 1))
  · rw [if_pos hc]; simp [directed, hc]
  · rw [if_neg hc]
    rcases hj with rfl | rfl
    · exact absurd he hc
    · unfold directed flip
      rw [if_neg (by omega)]
      have : (-(-(p k : Int) - 1) - 1).toNat = p k := by omega
      rw [this, he]; rfl

theorem index_sgnd (k : Int) : index (sgnd edges v p k) = p k := by
  unfold sgnd index flip
  by_cases hc : edges[p k]? = some (v k, v (k + 1))
  · rw [if_pos hc]; simp
  · rw [if_neg hc, if_neg (by omega)]; omega

/-- The signed order along the cycle. -/
def loop (edges : List Edge) (v : Int → Int) (p : Int → Nat) : List Int := (List.range edges.length).map fun (k : Nat) => sgnd edges v p k

theorem vmod (h : Cyc edges v p) (i : Nat) : v (((i + 1) % edges.length : Nat) : Int) = v ((i : Int) + 1) := by
  rw [h.vinj]
  push_cast
  have := Int.emod_add_mul_ediv ((i : Int) + 1) edges.length
  refine ⟨-(((i : Int) + 1) / edges.length), ?_⟩
  rw [Int.mul_neg]; omega

theorem loop_oriented (h : Cyc edges v p) : IsOrientedLoop edges (loop edges v p) := by
  have hpos : 0 < edges.length := by have := h.three; omega
  constructor
  · have : (loop edges v p).map index = (List.range edges.length).map fun (k : Nat) => p k := by
      simp [loop, Function.comp_def, index_sgnd]
    rw [this]; exact h.perm_range
  · intro i hi
    have hm : (i + 1) % edges.length < edges.length := Nat.mod_lt _ hpos
    refine ⟨sgnd edges v p i, sgnd edges v p (((i + 1) % edges.length : Nat) : Int), v i, v (i + 1),
      v ((((i + 1) % edges.length : Nat) : Int) + 1), by simp only [loop, List.getElem?_map,
      List.getElem?_range hi, Option.map_some], by simp only [loop, List.getElem?_map, List.getElem?_range hm, Option.map_some],
      h.directed_sgnd _, ?_⟩
    rw [h.directed_sgnd, h.vmod]

/-- Direction of a signed edge as the contract check reads it. -/
theorem contract_loop (h : Cyc edges v p) : contractOK edges (loop edges v p) = true := by
  have hpos : 0 < edges.length := by have := h.three; omega
  have key : ∀ (s : Int) (a b : Int), directed edges s = some (a, b) → ∃ e, edges[posID s]? = some e ∧
      (if 0 ≤ s then e.2 else e.1) = b ∧ (if 0 ≤ s then e.1 else e.2) = a := by
    intro s a b hd
    unfold directed at hd
    unfold posID flip
    by_cases hs : 0 ≤ s
    · rw [if_pos hs] at hd ⊢; exact ⟨_, hd, by simp [hs], by simp [hs]⟩
    · rw [if_neg hs] at hd ⊢
      obtain ⟨e, he, hsw⟩ := Option.map_eq_some_iff.1 hd
      refine ⟨e, he, ?_, ?_⟩
      · rw [if_neg hs]; exact congrArg Prod.snd hsw
      · rw [if_neg hs]; exact congrArg Prod.fst hsw
  unfold contractOK
  rw [List.all_eq_true]
  intro i hi
  obtain ⟨s₁, s₂, a, b, c, h1, h2, h3, h4⟩ := h.loop_oriented.head_to_tail i (by simpa using hi)
  obtain ⟨e1, g1, g2, _⟩ := key _ _ _ h3
  obtain ⟨e2, g3, _, g4⟩ := key _ _ _ h4
  simp only [h1, h2, g1, g3, g2, g4]
  simp

theorem finish (h : Cyc edges v p) (dbg : Bool) (h0 : edges[p 0]? = some (v 0, v 1)) :
    finishOrder dbg edges (ord p edges.length) = .ok (loop edges v p) := by
  have h3 := h.three
  obtain ⟨m, hm⟩ : ∃ m, edges.length = m + 1 + 1 := ⟨edges.length - 2, by omega⟩
  obtain ⟨e1, he1, hj⟩ := h.edge 1
  have hn1 : v 0 ≠ v 1 := by have := h.v_succ_ne 0; simpa using this
  have hn2 : v 0 ≠ v (1 + 1) := by
    intro hc
    have := dvd_small ((h.vinj _ _).1 hc) (by omega) (by omega)
    omega
  have hlast : ¬ (v 0 = e1.1) := by
    rcases hj with rfl | rfl
    · exact hn1
    · exact hn2
  have hord : ord p edges.length = p 0 :: p 1 :: (List.range' 2 m).map fun (i : Nat) => p i := by
    rw [hm]; simp [ord, List.range_eq_range', List.range'_succ]
  have hor := h.orient_from dbg (m + 1) 1 (by omega)
  have hsg : sgnd edges v p 0 = p 0 := by simp [sgnd, h0]
  have hloop : loop edges v p = (p 0 : Int) :: (List.range' 1 (m + 1)).map fun (i : Nat) => sgnd edges v p i := by
    unfold loop
    rw [hm, List.range_eq_range', List.range'_succ, List.map_cons]
    simp [hsg]
  have hc := h.contract_loop
  rw [hloop] at hc
  rw [List.range'_succ, List.map_cons] at hor
  simp only [Nat.cast_one] at hor
  rw [hord, hloop]
  unfold finishOrder
  simp only [Res.bind_eq, rd_eq_ok.2 h0, Res.bind_ok, rd_eq_ok.2 he1, hlast, if_false, hor, Res.pure_eq]
  rw [Res.assert_true dbg (by simp [hm]), Res.bind_ok]
  rw [Res.assert_true dbg (by exact hc), Res.bind_ok]
  simp [List.range'_succ]

theorem use_two (h : Cyc edges v p) (a : Int) : (inc edges [] (v a)).length = 2 := by
  have hne : p a ≠ p (a - 1) := by
    intro hc
    have h3 := h.three
    have := dvd_small ((h.pinj _ _).1 hc) (by omega) (by omega)
    omega
  have : (inc edges [] (v a)).Perm [p a, p (a - 1)] := by
    rw [List.perm_ext_iff_of_nodup (inc_nodup _ _ _) (by simp [hne])]
    intro i
    rw [mem_inc, h.touches_iff]; simp
  exact this.length_eq

theorem closed_loop (h : Cyc edges v p) (dbg : Bool) (hp0 : p 0 = 0) (he0 : edges[0]? = some (v 0, v 1)) :
    computeSortedFaceEdges dbg edges = .ok (false, edges, loop edges v p) := by
  have h3 := h.three
  obtain ⟨i1, i2⟩ := invert_top h.noloop
  have huse : ∀ e ∈ edges, ¬ ((invertEdges 0 edges (fun _ => [], fun _ => 0)).2 e.1 = 1 ∨
      (invertEdges 0 edges (fun _ => [], fun _ => 0)).2 e.2 = 1) := by
    intro e he
    obtain ⟨i, hi⟩ := List.getElem?_of_mem he
    obtain ⟨k, hk, rfl⟩ := h.surj (List.getElem?_eq_some_iff.1 hi).1
    obtain ⟨e', he', hj⟩ := h.edge k
    rw [hi] at he'; cases he'
    rw [i2, i2]
    rcases hj with rfl | rfl <;> simp [h.use_two]
  have hh : (List.range edges.length).filter (hangs (invertEdges 0 edges (fun _ => [], fun _ => 0)).2 edges) = [] := by
    rw [List.filter_eq_nil_iff]
    intro i hi
    simp only [List.mem_range] at hi
    have := huse edges[i] (List.getElem_mem hi)
    simp [hangs, hi, this]
  obtain ⟨n2e, f1, f2⟩ := findHanging_spec dbg _ edges (fun e he hc => absurd hc (huse e he)) edges 0 ([], _, []) (by simp) (by omega)
    (by simp) (by simp) i1
  rw [hh] at f1 f2
  have hwalk := h.walk_all dbg hp0 f2
  have hfin := h.finish dbg (by rw [hp0]; exact he0)
  unfold computeSortedFaceEdges
  simp only [Res.bind_eq, Res.assert_true dbg (show edges.length ≥ 2 by omega), Res.bind_ok, f1]
  rw [Res.assert_true dbg (by exact Or.inl rfl), Res.bind_ok]
  simp only [startWalk, List.map_nil, Res.bind_eq, rd_eq_ok.2 he0, Res.bind_ok, Res.pure_eq, List.length_nil, Nat.sub_zero, hwalk, hfin]
  rfl

theorem closed_spec (h : Cyc edges v p) (dbg : Bool) : ∃ s, computeSortedFaceEdges dbg edges = .ok (false, edges, s) ∧
    s[0]? = some 0 ∧ IsOrientedLoop edges s := by
  obtain ⟨v, p, h, hp0, he0⟩ := h.normal
  have h3 := h.three
  refine ⟨loop edges v p, h.closed_loop dbg hp0 he0, ?_, h.loop_oriented⟩
  · have : 0 < edges.length := by omega
    simp only [loop, List.getElem?_map, List.getElem?_range this, Option.map_some, sgnd, Nat.cast_zero, hp0, Int.zero_add, he0, if_true]

end Cyc

theorem emod_eq_iff {n : Nat} (hn : 0 < n) (a b : Int) : (a % n).toNat = (b % n).toNat ↔ (n : Int) ∣ a - b := by
  have h1 := Int.emod_nonneg a (show (n : Int) ≠ 0 by omega)
  have h2 := Int.emod_nonneg b (show (n : Int) ≠ 0 by omega)
  rw [← Int.emod_eq_emod_iff_emod_sub_eq_zero.trans Int.dvd_iff_emod_eq_zero.symm]
  omega

theorem IsPolygon.cyc {edges : List Edge} (h : IsPolygon edges) : ∃ v p, Cyc edges v p := by
  obtain ⟨h3, node, order, n1, o1, he⟩ := h
  have hpos : 0 < edges.length := by omega
  have hlt : ∀ a : Int, (a % edges.length).toNat < edges.length := by
    intro a
    have := Int.emod_lt_of_pos a (show (0 : Int) < edges.length by omega)
    omega
  refine ⟨fun a => node (a % edges.length).toNat, fun a => order (a % edges.length).toNat, h3, ?_, ?_, ?_⟩
  · intro a b
    rw [← emod_eq_iff hpos]
    exact ⟨n1 _ (hlt a) _ (hlt b), fun h => by rw [h]⟩
  · intro a b
    rw [← emod_eq_iff hpos]
    exact ⟨o1 _ (hlt a) _ (hlt b), fun h => by rw [h]⟩
  · intro a
    obtain ⟨e, h1, h2⟩ := he _ (hlt a)
    refine ⟨e, h1, ?_⟩
    have : ((a % edges.length).toNat + 1) % edges.length = ((a + 1) % edges.length).toNat := by
      have h0 := Int.emod_nonneg a (show (edges.length : Int) ≠ 0 by omega)
      have : ((((a % edges.length).toNat + 1) % edges.length : Nat) : Int) = (a + 1) % edges.length := by
        push_cast
        rw [Int.toNat_of_nonneg h0, Int.emod_add_emod]
      omega
    rw [← this]; exact h2

end Verif.Internal
