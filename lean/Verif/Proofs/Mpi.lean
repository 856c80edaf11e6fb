import Verif.Model.Mpi
import Mathlib.Algebra.BigOperators.Group.Finset.Basic
import Mathlib.Algebra.Order.BigOperators.Group.Finset
import Mathlib.Data.List.Nodup
/-
One exchange: whatever the order of steps, nothing goes wrong, nobody waits for ever, and every process ends with the state it would reach receiving the messages
in program order.
-/
namespace Verif.Mpi
open Verif
variable {σ β : Type}

/-- The exchange fits together: neighbours are mutual, every message is what its receiver expects, and `st p k` is the state of `p` after its first `k` neighbours. -/
structure Fits (P : Prog σ β) (n : Nat) (msgs : Nat → List (Nat × Option (List β))) (st : Nat → Nat → σ) : Prop where
  lt : ∀ p, p < n → ∀ q ∈ P.nbrs p, q < n
  sym : ∀ p, p < n → ∀ q ∈ P.nbrs p, p ∈ P.nbrs q
  nodup : ∀ p, p < n → (P.nbrs p).Nodup
  ne : ∀ p, p < n → P.nbrs p ≠ []
  post : ∀ p, p < n → P.post p = .ok (msgs p, st p 0)
  len : ∀ p, p < n → (msgs p).length = (P.nbrs p).length
  size : ∀ p, p < n → ∀ (k q j sz : Nat) (d : Option (List β)), (P.nbrs p)[k]? = some q → (P.nbrs q)[j]? = some p → (msgs q)[j]? = some (sz, d) →
    P.onSize p (st p k) k sz = .ok d.isSome ∧ (d = none → st p (k + 1) = st p k) ∧ ∀ c, d = some c → P.onData p (st p k) k sz c = .ok (st p (k + 1))

/-- How many size messages process `p` has received. -/
def szDone (N : Nat) : PS σ → Nat
  | .start => 0
  | .size k _ => k
  | .data k _ _ => k + 1
  | .wait _ => N
  | .done _ => N

/-- How many neighbours process `p` is through with. -/
def dtDone (N : Nat) : PS σ → Nat
  | .start => 0
  | .size k _ => k
  | .data k _ _ => k
  | .wait _ => N
  | .done _ => N

def started : PS σ → Prop
  | .start => False
  | _ => True

/-- Steps process `p` has still to take, at most. -/
def left (N : Nat) : PS σ → Nat
  | .start => 2 * N + 3
  | .size k _ => 2 * (N - k) + 2
  | .data k _ _ => 2 * (N - k) + 1
  | .wait _ => 1
  | .done _ => 0

/-- The local state of `p` is right for its position. -/
def LocalOK (P : Prog σ β) (msgs : Nat → List (Nat × Option (List β))) (st : Nat → Nat → σ) (p : Nat) : PS σ → Prop
  | .start => True
  | .size k s => k ≤ (P.nbrs p).length ∧ s = st p k
  | .data k sz s => s = st p k ∧ ∃ (q j : Nat) (c : List β), (P.nbrs p)[k]? = some q ∧ (P.nbrs q)[j]? = some p ∧ (msgs q)[j]? = some (sz, some c)
  | .wait s => s = st p (P.nbrs p).length
  | .done s => s = st p (P.nbrs p).length

structure Inv (P : Prog σ β) (n : Nat) (msgs : Nat → List (Nat × Option (List β))) (st : Nat → Nat → σ) (y : Sys σ β) : Prop where
  loc : ∀ p, p < n → LocalOK P msgs st p (y.proc p)
  fresh : ∀ p, p < n → ¬ started (y.proc p) → ∀ q, y.sizeQ p q = [] ∧ y.dataQ p q = []
  early : ∀ p, p < n → ¬ started (y.proc p) → ∀ q j, q < n → (P.nbrs q)[j]? = some p →
    szDone (P.nbrs q).length (y.proc q) ≤ j ∧ dtDone (P.nbrs q).length (y.proc q) ≤ j
  queue : ∀ p, p < n → started (y.proc p) → ∀ (i q j sz : Nat) (d : Option (List β)), (P.nbrs p)[i]? = some q → (P.nbrs q)[j]? = some p → (msgs p)[i]? = some (sz, d) →
    y.sizeQ p q = (if j < szDone (P.nbrs q).length (y.proc q) then [] else [sz]) ∧
    y.dataQ p q = (if j < dtDone (P.nbrs q).length (y.proc q) then [] else d.toList)

theorem sendAll_other (p : Nat) : ∀ (qs : List Nat) (ms : List (Nat × Option (List β))) (S : Nat → Nat → List Nat) (T : Nat → Nat → List (List β)) (a b : Nat),
    a ≠ p ∨ b ∉ qs → (sendAll p qs ms S T).1 a b = S a b ∧ (sendAll p qs ms S T).2 a b = T a b
  | [], ms, S, T, a, b, _ => by simp [sendAll]
  | q :: qs, [], S, T, a, b, _ => by simp [sendAll]
  | q :: qs, (sz, some c) :: ms, S, T, a, b, h => by
    have h1 : ¬ (a = p ∧ b = q) := by rintro ⟨rfl, rfl⟩; simp at h
    have := sendAll_other p qs ms (enqueue S p q sz) (enqueue T p q c) a b (by simp at h; tauto)
    rw [sendAll, this.1, this.2]; simp [enqueue, h1]
  | q :: qs, (sz, none) :: ms, S, T, a, b, h => by
    have h1 : ¬ (a = p ∧ b = q) := by rintro ⟨rfl, rfl⟩; simp at h
    have := sendAll_other p qs ms (enqueue S p q sz) T a b (by simp at h; tauto)
    rw [sendAll, this.1, this.2]; simp [enqueue, h1]

theorem sendAll_get (p : Nat) : ∀ (qs : List Nat) (ms : List (Nat × Option (List β))) (S : Nat → Nat → List Nat) (T : Nat → Nat → List (List β)) (i q sz : Nat)
    (d : Option (List β)), qs.Nodup → qs[i]? = some q → ms[i]? = some (sz, d) →
    (sendAll p qs ms S T).1 p q = S p q ++ [sz] ∧ (sendAll p qs ms S T).2 p q = T p q ++ d.toList
  | [], ms, S, T, i, q, sz, d, _, h, _ => by simp at h
  | q' :: qs, [], S, T, i, q, sz, d, _, _, h => by simp at h
  | q' :: qs, (sz', d') :: ms, S, T, 0, q, sz, d, hn, h1, h2 => by
    simp only [List.getElem?_cons_zero, Option.some.injEq, Prod.mk.injEq] at h1 h2
    obtain ⟨rfl, rfl⟩ := h2
    subst h1
    have hq := (List.nodup_cons.1 hn).1
    cases d' with
    | none => rw [sendAll]; have := sendAll_other p qs ms (enqueue S p q' sz') T p q' (Or.inr hq); rw [this.1, this.2]; simp [enqueue]
    | some c => rw [sendAll]; have := sendAll_other p qs ms (enqueue S p q' sz') (enqueue T p q' c) p q' (Or.inr hq); rw [this.1, this.2]; simp [enqueue]
  | q' :: qs, (sz', d') :: ms, S, T, i + 1, q, sz, d, hn, h1, h2 => by
    simp only [List.getElem?_cons_succ] at h1 h2
    have hne : q ≠ q' := by rintro rfl; exact (List.nodup_cons.1 hn).1 (List.mem_of_getElem? h1)
    have hn' := (List.nodup_cons.1 hn).2
    cases d' with
    | none => rw [sendAll]; have := sendAll_get p qs ms (enqueue S p q' sz') T i q sz d hn' h1 h2; rw [this.1, this.2]; simp [enqueue, hne]
    | some c => rw [sendAll]; have := sendAll_get p qs ms (enqueue S p q' sz') (enqueue T p q' c) i q sz d hn' h1 h2; rw [this.1, this.2]; simp [enqueue, hne]

theorem nodup_idx {l : List Nat} (h : l.Nodup) {i j a : Nat} (hi : l[i]? = some a) (hj : l[j]? = some a) : i = j := by
  obtain ⟨h1, h2⟩ := List.getElem?_eq_some_iff.1 hi
  obtain ⟨h3, h4⟩ := List.getElem?_eq_some_iff.1 hj
  exact (List.Nodup.getElem_inj_iff h).1 (h2.trans h4.symm)

section
variable {P : Prog σ β} {n : Nat} {msgs : Nat → List (Nat × Option (List β))} {st : Nat → Nat → σ}

theorem inv_init : Inv P n msgs st (init σ β) :=
  ⟨fun _ _ => trivial, fun _ _ _ _ => ⟨rfl, rfl⟩, fun _ _ _ _ _ _ _ => ⟨Nat.zero_le _, Nat.zero_le _⟩, fun _ _ h => absurd h (by simp [init, started])⟩

/-- The partner of a neighbour: its position in the neighbour's list, and the message meant for us. -/
theorem Fits.partner (hF : Fits P n msgs st) {p k q : Nat} (hp : p < n) (hk : (P.nbrs p)[k]? = some q) :
    q < n ∧ ∃ (j sz : Nat) (d : Option (List β)), (P.nbrs q)[j]? = some p ∧ (msgs q)[j]? = some (sz, d) := by
  have hq := List.mem_of_getElem? hk
  obtain ⟨j, hj, hjp⟩ := List.getElem_of_mem (hF.sym p hp q hq)
  have hql := hF.lt p hp q hq
  refine ⟨hql, j, ((msgs q)[j]'(by rw [hF.len q hql]; exact hj)).1, ((msgs q)[j]'(by rw [hF.len q hql]; exact hj)).2, ?_, ?_⟩
  · rw [List.getElem?_eq_getElem hj, hjp]
  · rw [List.getElem?_eq_getElem (by rw [hF.len q hql]; exact hj)]

/-- A move of process `p` that leaves the queues alone and does not change what it has received. -/
theorem inv_move {y : Sys σ β} (hI : Inv P n msgs st y) {p : Nat} {x : PS σ} (hx : LocalOK P msgs st p x)
    (h1 : started (y.proc p)) (h2 : started x) (h3 : szDone (P.nbrs p).length x = szDone (P.nbrs p).length (y.proc p))
    (h4 : dtDone (P.nbrs p).length x = dtDone (P.nbrs p).length (y.proc p)) : Inv P n msgs st { y with proc := setProc y.proc p x } := by
  have hz : ∀ q, szDone (P.nbrs q).length (setProc y.proc p x q) = szDone (P.nbrs q).length (y.proc q) := by
    intro q
    by_cases h : q = p
    · subst h; simp [setProc, h3]
    · simp [setProc, h]
  have hd : ∀ q, dtDone (P.nbrs q).length (setProc y.proc p x q) = dtDone (P.nbrs q).length (y.proc q) := by
    intro q
    by_cases h : q = p
    · subst h; simp [setProc, h4]
    · simp [setProc, h]
  have hs : ∀ q, started (setProc y.proc p x q) ↔ started (y.proc q) := by
    intro q
    by_cases h : q = p
    · subst h; simp [setProc, h1, h2]
    · simp [setProc, h]
  refine ⟨?_, ?_, ?_, ?_⟩
  · intro a ha
    by_cases h : a = p
    · subst h; simpa [setProc] using hx
    · simpa [setProc, h] using hI.loc a ha
  · intro a ha h q; exact hI.fresh a ha (by rwa [← hs a]) q
  · intro a ha h q j hq hj
    simp only [hz, hd]; exact hI.early a ha (by rwa [← hs a]) q j hq hj
  · intro a ha h i q j sz d hi hj hm
    simp only [hz, hd]; exact hI.queue a ha (by rwa [← hs a]) i q j sz d hi hj hm

/-- A move of process `p` that takes a message from its `k`-th neighbour `q`. -/
theorem inv_recv (hF : Fits P n msgs st) {y y' : Sys σ β} (hI : Inv P n msgs st y) {p k q : Nat} {x : PS σ} (hp : p < n) (hx : LocalOK P msgs st p x)
    (h1 : started (y.proc p)) (h2 : started x) (hk : (P.nbrs p)[k]? = some q) (hq : started (y.proc q)) (hy : y'.proc = setProc y.proc p x)
    (hz : ∀ j, j ≠ k → (j < szDone (P.nbrs p).length x ↔ j < szDone (P.nbrs p).length (y.proc p)))
    (hd : ∀ j, j ≠ k → (j < dtDone (P.nbrs p).length x ↔ j < dtDone (P.nbrs p).length (y.proc p)))
    (hother : ∀ a b, ¬ (a = q ∧ b = p) → y'.sizeQ a b = y.sizeQ a b ∧ y'.dataQ a b = y.dataQ a b)
    (hpair : ∀ (i sz : Nat) (d : Option (List β)), (P.nbrs q)[i]? = some p → (msgs q)[i]? = some (sz, d) →
      y'.sizeQ q p = (if k < szDone (P.nbrs p).length x then [] else [sz]) ∧ y'.dataQ q p = (if k < dtDone (P.nbrs p).length x then [] else d.toList)) :
    Inv P n msgs st y' := by
  have hs : ∀ q, started (y'.proc q) ↔ started (y.proc q) := by
    intro q
    rw [hy]
    by_cases h : q = p
    · subst h; simp [setProc, h1, h2]
    · simp [setProc, h]
  refine ⟨?_, ?_, ?_, ?_⟩
  · intro a ha
    rw [hy]
    by_cases h : a = p
    · subst h; simpa [setProc] using hx
    · simpa [setProc, h] using hI.loc a ha
  · intro a ha h b
    rw [hs] at h
    have := hother a b (by rintro ⟨rfl, _⟩; exact h hq)
    rw [this.1, this.2]
    exact hI.fresh a ha h b
  · intro a ha h b j hb hj
    rw [hs] at h
    have := hI.early a ha h b j hb hj
    rw [hy]
    by_cases hbp : b = p
    · subst hbp
      have hjk : j ≠ k := by
        rintro rfl
        rw [hk] at hj
        cases hj
        exact h hq
      simp only [setProc, if_true]
      have e1 := hz j hjk
      have e2 := hd j hjk
      omega
    · simpa [setProc, hbp] using this
  · intro a ha h i b j sz d hi hj hm
    rw [hs] at h
    by_cases hab : a = q ∧ b = p
    · obtain ⟨rfl, rfl⟩ := hab
      have : j = k := nodup_idx (hF.nodup b hp) hj hk
      subst this
      rw [hy]
      simpa [setProc] using hpair i sz d hi hm
    · have ho := hother a b hab
      rw [ho.1, ho.2, hy]
      have := hI.queue a ha h i b j sz d hi hj hm
      by_cases hbp : b = p
      · subst hbp
        have hjk : j ≠ k := by
          rintro rfl
          rw [hk] at hj
          cases hj
          exact hab ⟨rfl, rfl⟩
        simp only [setProc, if_true, hz j hjk, hd j hjk]
        exact this
      · simpa [setProc, hbp] using this

/-- A step of the system from a state satisfying the invariant: it succeeds and keeps the invariant. -/
theorem inv_step (hF : Fits P n msgs st) {y : Sys σ β} (hI : Inv P n msgs st y) {p : Nat} (hp : p < n) {r : Res (Sys σ β)} (hr : step P n p y = some r) :
    ∃ y', r = .ok y' ∧ Inv P n msgs st y' ∧ (∀ a, a ≠ p → y'.proc a = y.proc a) ∧ left (P.nbrs p).length (y'.proc p) < left (P.nbrs p).length (y.proc p) := by
  have hl := hI.loc p hp
  unfold step at hr
  cases hph : y.proc p with
  | start =>
    simp only [hph, hF.post p hp, Res.bind_eq, Res.bind_ok, Res.pure_eq, if_pos (hF.lt p hp), Option.some.injEq] at hr
    have hz : ∀ q, szDone (P.nbrs q).length (setProc y.proc p (.size 0 (st p 0)) q) = szDone (P.nbrs q).length (y.proc q) := by
      intro q
      by_cases h : q = p
      · subst h; simp [setProc, hph, szDone]
      · simp [setProc, h]
    have hd : ∀ q, dtDone (P.nbrs q).length (setProc y.proc p (.size 0 (st p 0)) q) = dtDone (P.nbrs q).length (y.proc q) := by
      intro q
      by_cases h : q = p
      · subst h; simp [setProc, hph, dtDone]
      · simp [setProc, h]
    have hns : ¬ started (y.proc p) := by rw [hph]; simp [started]
    refine ⟨_, hr.symm, ⟨?_, ?_, ?_, ?_⟩, fun a ha => by simp [setProc, ha], by simp [setProc, left]⟩
    · intro a ha
      by_cases h : a = p
      · subst h; simp [setProc, LocalOK]
      · simpa [setProc, h] using hI.loc a ha
    · intro a ha hs q
      by_cases h : a = p
      · subst h; simp [setProc, started] at hs
      · have := sendAll_other p (P.nbrs p) (msgs p) y.sizeQ y.dataQ a q (Or.inl h)
        simp only [this.1, this.2]
        exact hI.fresh a ha (by simpa [setProc, h] using hs) q
    · intro a ha hs q j hq hj
      simp only [hz, hd]
      by_cases h : a = p
      · subst h; simp [setProc, started] at hs
      · exact hI.early a ha (by simpa [setProc, h] using hs) q j hq hj
    · intro a ha hs i q j sz d hi hj hm
      simp only [hz, hd]
      by_cases h : a = p
      · subst h
        have hsend := sendAll_get a (P.nbrs a) (msgs a) y.sizeQ y.dataQ i q sz d (hF.nodup a ha) hi hm
        have hfr := hI.fresh a ha hns q
        have hea := hI.early a ha hns q j (hF.lt a ha q (List.mem_of_getElem? hi)) hj
        rw [hsend.1, hsend.2, hfr.1, hfr.2, if_neg (by omega), if_neg (by omega)]
        simp
      · have := sendAll_other p (P.nbrs p) (msgs p) y.sizeQ y.dataQ a q (Or.inl h)
        simp only [this.1, this.2]
        exact hI.queue a ha (by simpa [setProc, h] using hs) i q j sz d hi hj hm
  | size k s =>
    rw [hph] at hl
    obtain ⟨hkN, rfl⟩ := hl
    cases hk : (P.nbrs p)[k]? with
    | none =>
      have hkN' : k = (P.nbrs p).length := le_antisymm hkN (List.getElem?_eq_none_iff.1 hk)
      simp only [hph, hk, Option.some.injEq] at hr
      refine ⟨_, hr.symm, inv_move hI (by simp [LocalOK, hkN']) (by rw [hph]; trivial) trivial (by simp [hph, szDone, hkN']) (by simp [hph, dtDone, hkN']),
        fun a ha => by simp [setProc, ha], by simp [setProc, left]⟩
    | some q =>
      obtain ⟨hql, j, sz, d, hj, hm⟩ := hF.partner hp hk
      have hkl := (List.getElem?_eq_some_iff.1 hk).1
      simp only [hph, hk] at hr
      cases hQ : y.sizeQ q p with
      | nil => simp [hQ] at hr
      | cons sz' rest =>
        have hst : started (y.proc q) := by
          by_contra h
          rw [(hI.fresh q hql h p).1] at hQ
          cases hQ
        have hqq := hI.queue q hql hst j p k sz d hj hk hm
        rw [hph] at hqq
        simp only [szDone, dtDone, lt_irrefl, if_false] at hqq
        rw [hqq.1] at hQ
        obtain ⟨rfl, rfl⟩ := List.cons.inj hQ
        obtain ⟨ho, hnone, hsome⟩ := hF.size p hp k q j sz d hk hj hm
        simp only [hqq.1, ho, Res.bind_eq, Res.bind_ok, Res.pure_eq, Option.some.injEq] at hr
        refine ⟨_, hr.symm, inv_recv (x := if d.isSome then .data k sz (st p k) else .size (k + 1) (st p k)) hF hI hp ?_ (by rw [hph]; trivial) ?_ hk hst rfl
          ?_ ?_ ?_ ?_, fun a ha => by simp [setProc, ha], ?_⟩
        · cases d with
          | none => simp only [Option.isSome_none, Bool.false_eq_true, if_false, LocalOK]; exact ⟨hkl, (hnone rfl).symm⟩
          | some c => simp only [Option.isSome_some, if_true, LocalOK]; exact ⟨trivial, q, j, c, hk, hj, hm⟩
        · cases d <;> trivial
        · intro i hi
          rw [hph]
          cases d <;> simp [szDone] <;> omega
        · intro i hi
          rw [hph]
          cases d <;> simp [dtDone]
          omega
        · intro a b hab
          simp [dequeue, hab]
        · intro i sz2 d2 hi2 hm2
          have hij : i = j := nodup_idx (hF.nodup q hql) hi2 hj
          subst hij
          rw [hm] at hm2
          cases hm2
          simp only [dequeue, and_self, if_true, hqq.1, hqq.2]
          cases d <;> simp [szDone, dtDone]
        · cases d <;> simp [setProc, left]
          omega
  | data k sz s =>
    rw [hph] at hl
    obtain ⟨rfl, q, j, c, hk, hj, hm⟩ := hl
    have hql := hF.lt p hp q (List.mem_of_getElem? hk)
    have hkl := (List.getElem?_eq_some_iff.1 hk).1
    simp only [hph, hk] at hr
    cases hQ : y.dataQ q p with
    | nil => simp [hQ] at hr
    | cons c' rest =>
      have hst : started (y.proc q) := by
        by_contra h
        rw [(hI.fresh q hql h p).2] at hQ
        cases hQ
      have hqq := hI.queue q hql hst j p k sz (some c) hj hk hm
      rw [hph] at hqq
      simp only [szDone, dtDone, lt_irrefl, if_false, Option.toList_some, Nat.lt_succ_self, if_true] at hqq
      rw [hqq.2] at hQ
      obtain ⟨rfl, rfl⟩ := List.cons.inj hQ
      obtain ⟨-, -, hsome⟩ := hF.size p hp k q j sz _ hk hj hm
      simp only [hqq.2, hsome c rfl, Res.bind_eq, Res.bind_ok, Res.pure_eq, Option.some.injEq] at hr
      refine ⟨_, hr.symm, inv_recv (x := .size (k + 1) (st p (k + 1))) hF hI hp ⟨hkl, rfl⟩ (by rw [hph]; trivial) trivial hk hst rfl
          ?_ ?_ ?_ ?_, fun a ha => by simp [setProc, ha], ?_⟩
      · intro i hi; rw [hph]; simp [szDone]
      · intro i hi; rw [hph]; simp [dtDone]; omega
      · intro a b hab; simp [dequeue, hab]
      · intro i sz2 d2 hi2 hm2
        simp [dequeue, szDone, dtDone, hqq.1, hqq.2]
      · simp [setProc, left]; omega
  | wait s =>
    rw [hph] at hl
    simp only [hph, if_neg (hF.ne p hp)] at hr
    split at hr
    · rw [Option.some.injEq] at hr
      exact ⟨_, hr.symm, inv_move hI hl (by rw [hph]; trivial) trivial (by simp [hph, szDone]) (by simp [hph, dtDone]),
        fun a ha => by simp [setProc, ha], by simp [setProc, left]⟩
    · cases hr
  | done s => simp [hph] at hr

/-- Somebody can move unless all are done. -/
theorem progress (hF : Fits P n msgs st) {y : Sys σ β} (hI : Inv P n msgs st y) : (∀ p, p < n → ∃ s, y.proc p = .done s) ∨ ∃ p r, p < n ∧ step P n p y = some r := by
  by_cases hall : ∀ p, p < n → started (y.proc p)
  · by_cases hw : ∀ p, p < n → (∃ s, y.proc p = .wait s) ∨ ∃ s, y.proc p = .done s
    · by_cases hdone : ∀ p, p < n → ∃ s, y.proc p = .done s
      · exact Or.inl hdone
      · right
        push Not at hdone
        obtain ⟨p, hp, hnd⟩ := hdone
        obtain ⟨s, hs⟩ := (hw p hp).resolve_right (by rintro ⟨s, h⟩; exact hnd s h)
        refine ⟨p, .ok { y with proc := setProc y.proc p (.done s) }, hp, ?_⟩
        unfold step
        simp only [hs, if_neg (hF.ne p hp)]
        rw [if_pos]
        intro q hq
        obtain ⟨i, hi, hiq⟩ := List.getElem_of_mem hq
        obtain ⟨hql, j, sz', d', hj, hm'⟩ := hF.partner hp (k := i) (q := q) (by rw [List.getElem?_eq_getElem hi, hiq])
        have hil : i < (msgs p).length := by rw [hF.len p hp]; exact hi
        have := hI.queue p hp (hall p hp) i q j (msgs p)[i].1 (msgs p)[i].2 (by rw [List.getElem?_eq_getElem hi, hiq]) hj (by rw [List.getElem?_eq_getElem hil])
        have hjl := (List.getElem?_eq_some_iff.1 hj).1
        rcases hw q hql with ⟨s', h'⟩ | ⟨s', h'⟩ <;> simpa [h', szDone, dtDone, hjl] using this
    · right
      push Not at hw
      obtain ⟨p, hp, h1, h2⟩ := hw
      have hl := hI.loc p hp
      cases hph : y.proc p with
      | start => have := hall p hp; rw [hph] at this; exact this.elim
      | wait s => exact absurd hph (h1 s)
      | done s => exact absurd hph (h2 s)
      | size k s =>
        cases hk : (P.nbrs p)[k]? with
        | none => exact ⟨p, _, hp, by unfold step; simp only [hph, hk]; rfl⟩
        | some q =>
          obtain ⟨hql, j, sz, d, hj, hm⟩ := hF.partner hp hk
          have := (hI.queue q hql (hall q hql) j p k sz d hj hk hm).1
          rw [hph] at this
          simp only [szDone, lt_irrefl, if_false] at this
          exact ⟨p, _, hp, by unfold step; simp only [hph, hk, this]; rfl⟩
      | data k sz s =>
        rw [hph] at hl
        obtain ⟨rfl, q, j, c, hk, hj, hm⟩ := hl
        have hql := hF.lt p hp q (List.mem_of_getElem? hk)
        have := (hI.queue q hql (hall q hql) j p k sz _ hj hk hm).2
        rw [hph] at this
        simp only [dtDone, lt_irrefl, if_false, Option.toList_some] at this
        exact ⟨p, _, hp, by unfold step; simp only [hph, hk, this]; rfl⟩
  · right
    push Not at hall
    obtain ⟨p, hp, h⟩ := hall
    cases hph : y.proc p with
    | start => exact ⟨p, _, hp, by unfold step; simp only [hph]; rfl⟩
    | size k s => rw [hph] at h; exact absurd trivial h
    | data k sz s => rw [hph] at h; exact absurd trivial h
    | wait s => rw [hph] at h; exact absurd trivial h
    | done s => rw [hph] at h; exact absurd trivial h

theorem inv_reach (hF : Fits P n msgs st) {k : Nat} {y : Sys σ β} (h : Reach P n k y) :
    Inv P n msgs st y ∧ k + ∑ p ∈ Finset.range n, left (P.nbrs p).length (y.proc p) ≤ ∑ p ∈ Finset.range n, (2 * (P.nbrs p).length + 3) := by
  induction h with
  | init => exact ⟨inv_init, by simp [init, left]⟩
  | @step k p y y' hr hp hs ih =>
    obtain ⟨z, hz, hI, ho, hlt⟩ := inv_step hF ih.1 hp hs
    cases hz
    refine ⟨hI, ?_⟩
    have : ∑ a ∈ Finset.range n, left (P.nbrs a).length (y'.proc a) < ∑ a ∈ Finset.range n, left (P.nbrs a).length (y.proc a) := by
      apply Finset.sum_lt_sum
      · intro a _
        by_cases h : a = p
        · subst h; exact hlt.le
        · rw [ho a h]
      · exact ⟨p, Finset.mem_range.2 hp, hlt⟩
    omega

/-- The exchange, for every order of steps: no error, no deadlock, termination, and a determined final state. -/
theorem exchange (hF : Fits P n msgs st) {k : Nat} {y : Sys σ β} (h : Reach P n k y) :
    (∀ p r, p < n → step P n p y = some r → ∃ y', r = .ok y') ∧
    ((∀ p, p < n → ∃ s, y.proc p = .done s) ∨ ∃ p y', p < n ∧ step P n p y = some (.ok y')) ∧
    k ≤ ∑ p ∈ Finset.range n, (2 * (P.nbrs p).length + 3) ∧
    ∀ p s, p < n → y.proc p = .done s → s = st p (P.nbrs p).length := by
  obtain ⟨hI, hk⟩ := inv_reach hF h
  refine ⟨?_, ?_, by omega, ?_⟩
  · intro p r hp hr
    obtain ⟨y', h1, _⟩ := inv_step hF hI hp hr
    exact ⟨y', h1⟩
  · rcases progress hF hI with h | ⟨p, r, hp, hr⟩
    · exact Or.inl h
    · obtain ⟨y', h1, _⟩ := inv_step hF hI hp hr
      exact Or.inr ⟨p, y', hp, by rw [hr, h1]⟩
  · intro p s hp hs
    have := hI.loc p hp
    rw [hs] at this
    exact this
end
end Verif.Mpi
