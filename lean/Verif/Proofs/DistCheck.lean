import Verif.Model.DistCheck
import Verif.Proofs.Exchange
import Mathlib.Data.List.Sort
import Mathlib.Order.Basic
/-
How processes that use collective operations run, and what the check of C50 computes.
-/
namespace Verif.Check
open Verif Verif.Mesh
open Verif.Exch (rdG mapM_rd getD_mem_list)
variable {R κ V α β : Type} {n : Nat}

/-! ### Collective operations -/

theorem Ends.congr {ps qs : Nat → Coll V α} {a b : Nat → α} (h : Ends n ps a) (hp : ∀ p, p < n → ps p = qs p) (ha : ∀ p, p < n → a p = b p) : Ends n qs b := by
  induction h generalizing qs with
  | done h => exact .done fun p hl => by rw [← hp p hl, h p hl, ha p hl]
  | bcast hr h _ ih => exact .bcast hr (fun p hl => by rw [← hp p hl, h p hl]) (ih (fun _ _ => rfl) ha)
  | reduceMin h he hm _ ih => exact .reduceMin (fun p hl => by rw [← hp p hl, h p hl]) he hm (ih (fun _ _ => rfl) ha)

theorem Fails.congr {ps qs : Nat → Coll V α} (h : Fails n ps) (hp : ∀ p, p < n → ps p = qs p) : Fails n qs := by
  induction h generalizing qs with
  | ub hl h => exact .ub hl (by rw [← hp _ hl, h])
  | bcast hr h hf _ => exact .bcast hr (fun p hl => by rw [← hp p hl, h p hl]) hf
  | reduceMin h he hm hf _ => exact .reduceMin (fun p hl => by rw [← hp p hl, h p hl]) he hm hf

theorem Ends.bind {ps : Nat → Coll V α} {a : Nat → α} {f : Nat → α → Coll V β} {b : Nat → β} (h : Ends n ps a) (hf : Ends n (fun p => f p (a p)) b) :
    Ends n (fun p => (ps p).bind (f p)) b := by
  induction h with
  | done h => exact hf.congr (fun p hl => by rw [h p hl]; rfl) fun _ _ => rfl
  | bcast hr h _ ih => exact .bcast hr (fun p hl => by rw [h p hl]; rfl) (ih hf)
  | reduceMin h he hm _ ih => exact .reduceMin (fun p hl => by rw [h p hl]; rfl) he hm (ih hf)

theorem Ends.bindFails {ps : Nat → Coll V α} {a : Nat → α} {f : Nat → α → Coll V β} (h : Ends n ps a) (hf : Fails n (fun p => f p (a p))) :
    Fails n (fun p => (ps p).bind (f p)) := by
  induction h with
  | done h => exact hf.congr fun p hl => by rw [h p hl]; rfl
  | bcast hr h _ ih => exact .bcast hr (fun p hl => by rw [h p hl]; rfl) (ih hf)
  | reduceMin h he hm _ ih => exact .reduceMin (fun p hl => by rw [h p hl]; rfl) he hm (ih hf)

theorem Fails.bind {ps : Nat → Coll V α} (f : Nat → α → Coll V β) (h : Fails n ps) : Fails n (fun p => (ps p).bind (f p)) := by
  induction h with
  | ub hl h => exact .ub hl (by rw [h]; rfl)
  | bcast hr h _ ih => exact .bcast hr (fun p hl => by rw [h p hl]; rfl) ih
  | reduceMin h he hm _ ih => exact .reduceMin (fun p hl => by rw [h p hl]; rfl) he hm ih

theorem minOf (hn : 0 < n) (v : Nat → Nat) : ∃ m, (∃ p, p < n ∧ v p = m) ∧ ∀ p, p < n → m ≤ v p := by
  induction n with
  | zero => omega
  | succ n ih =>
    by_cases h0 : n = 0
    · subst h0
      refine ⟨v 0, ⟨0, by omega, rfl⟩, fun p hp => ?_⟩
      have : p = 0 := by omega
      subst this; omega
    · obtain ⟨m, ⟨p, hp, he⟩, hm⟩ := ih (by omega)
      by_cases hmn : m ≤ v n
      · refine ⟨m, ⟨p, by omega, he⟩, fun q hq => ?_⟩
        rcases Nat.lt_succ_iff_lt_or_eq.1 hq with hq | rfl
        · exact hm q hq
        · exact hmn
      · refine ⟨v n, ⟨n, by omega, rfl⟩, fun q hq => ?_⟩
        rcases Nat.lt_succ_iff_lt_or_eq.1 hq with hq | rfl
        · have := hm q hq; omega
        · exact le_refl _

/-- The result of running together is determined. -/
theorem Ends.unique {ps : Nat → Coll V α} {a b : Nat → α} (hn : 0 < n) (h : Ends n ps a) (h' : Ends n ps b) : ∀ p, p < n → a p = b p := by
  induction h with
  | done h =>
    cases h' with
    | done h' => intro p hp; have := h p hp; rw [h' p hp] at this; injection this with this; exact this.symm
    | bcast hr h' _ => have := h 0 hn; rw [h' 0 hn] at this; cases this
    | reduceMin h' _ _ _ => have := h 0 hn; rw [h' 0 hn] at this; cases this
  | bcast hr h _ ih =>
    cases h' with
    | done h' => have := h 0 hn; rw [h' 0 hn] at this; cases this
    | reduceMin h' _ _ _ => have := h 0 hn; rw [h' 0 hn] at this; cases this
    | bcast hr' h' he =>
      have h0 := h 0 hn
      rw [h' 0 hn] at h0
      injection h0 with e1 e2
      subst e1
      apply ih
      refine he.congr (fun p hp => ?_) fun _ _ => rfl
      have h1 := h p hp
      have h2 := h _ hr
      rw [h' p hp] at h1
      rw [h' _ hr] at h2
      injection h1 with _ _ _ e3
      injection h2 with _ _ e4 _
      rw [e3, e4]
  | reduceMin h he hm _ ih =>
    cases h' with
    | done h' => have := h 0 hn; rw [h' 0 hn] at this; cases this
    | bcast hr' h' _ => have := h 0 hn; rw [h' 0 hn] at this; cases this
    | reduceMin h' he' hm' hh =>
      have hv : ∀ p, p < n → _ = _ ∧ _ = _ := fun p hp => by
        have h1 := h p hp
        rw [h' p hp] at h1
        injection h1 with e1 e2
        exact And.intro e1 e2
      apply ih
      obtain ⟨p, hp, e⟩ := he
      obtain ⟨p', hp', e'⟩ := he'
      have a1 := hm' p hp
      have a2 := hm p' hp'
      rw [(hv p hp).1] at a1
      rw [← (hv p' hp').1] at a2
      refine hh.congr (fun q hq => ?_) fun _ _ => rfl
      rw [(hv q hq).2]
      congr 1
      omega

/-- A run that ends does not fail. -/
theorem Ends.not_fails {ps : Nat → Coll V α} {a : Nat → α} (h : Ends n ps a) : ¬ Fails n ps := by
  induction h with
  | done h =>
    intro hf
    cases hf with
    | ub hl h' => have := h _ hl; rw [h'] at this; cases this
    | bcast hr h' _ => have := h _ hr; rw [h' _ hr] at this; cases this
    | reduceMin h' he _ _ => obtain ⟨p, hp, _⟩ := he; have := h p hp; rw [h' p hp] at this; cases this
  | bcast hr h _ ih =>
    intro hf
    cases hf with
    | ub hl h' => have := h _ hl; rw [h'] at this; cases this
    | reduceMin h' he _ _ => obtain ⟨p, hp, _⟩ := he; have := h p hp; rw [h' p hp] at this; cases this
    | bcast hr' h' he =>
      have h0 := h _ hr
      rw [h' _ hr] at h0
      injection h0 with e1 e2
      subst e1
      apply ih
      refine he.congr fun p hp => ?_
      have h1 := h p hp
      have h2 := h _ hr
      rw [h' p hp] at h1
      rw [h' _ hr] at h2
      injection h1 with _ _ _ e3
      injection h2 with _ _ e4 _
      rw [e3, e4]
  | reduceMin h he hm _ ih =>
    intro hf
    cases hf with
    | ub hl h' => have := h _ hl; rw [h'] at this; cases this
    | bcast hr h' _ => have := h _ hr; rw [h' _ hr] at this; cases this
    | reduceMin h' he' hm' hh =>
      have hv : ∀ p, p < n → _ = _ ∧ _ = _ := fun p hp => by
        have h1 := h p hp
        rw [h' p hp] at h1
        injection h1 with e1 e2
        exact And.intro e1 e2
      apply ih
      obtain ⟨p, hp, e⟩ := he
      obtain ⟨p', hp', e'⟩ := he'
      have a1 := hm' p hp
      have a2 := hm p' hp'
      rw [(hv p hp).1] at a1
      rw [← (hv p' hp').1] at a2
      refine hh.congr fun q hq => ?_
      rw [(hv q hq).2]
      congr 1
      omega

/-! ### The parts of the check -/

theorem resize_self {γ : Type} (x : List γ) (d : γ) : Serialize.resize x x.length d = x := by
  simp [Serialize.resize]

theorem reduceMax_spec (dbg : Bool) (hn : 0 < n) (x : Nat → List Char) :
    ∃ t, Ends (V := Msg κ) n (fun p => reduceMax dbg p n (x p)) (fun _ => t) ∧ (t = [] ↔ ∀ p, p < n → x p = []) ∧ ∃ p, p < n ∧ t = x p := by
  obtain ⟨m, ⟨p, hp, he⟩, hm⟩ := minOf hn fun p => if (x p).length = 0 then n else p
  by_cases hmn : m = n
  · have h0 : ∀ p, p < n → x p = [] := by
      intro q hq
      by_contra hne
      have := hm q hq
      rw [if_neg (by simpa using hne)] at this
      omega
    refine ⟨[], .reduceMin (fun _ _ => rfl) ⟨p, hp, he⟩ hm ?_, ⟨fun _ => h0, fun _ => rfl⟩, p, hp, (h0 p hp).symm⟩
    exact .done fun q hq => by rw [if_pos hmn, h0 q hq]
  · have hx : (x p).length ≠ 0 := by
      intro h0
      rw [if_pos h0] at he
      exact hmn he.symm
    rw [if_neg hx] at he
    subst he
    refine ⟨x p, .reduceMin (fun _ _ => rfl) ⟨p, hp, by rw [if_neg hx]⟩ hm ?_, ⟨fun h => absurd h (by simpa using hx), fun h => h p hp⟩, p, hp, rfl⟩
    refine .bcast (r := p) (c := 1) hp (fun q _ => by rw [if_neg hmn]) ?_
    refine .bcast (r := p) (c := (x p).length) hp (v := fun q => .str (Serialize.resize (x q) (x p).length '0')) (k := fun _ s => .done s.toStr) (fun q _ => by
      have : Res.assert dbg (0 < (Msg.num (κ := κ) (x p).length).toNum) = .ok () := Res.assert_true dbg (Nat.pos_of_ne_zero hx)
      rw [this]
      rfl) ?_
    refine .done fun q hq => ?_
    simp only [Msg.toStr, resize_self]

theorem whoLoop_spec (txt : Err κ → List Char) (ht : txt .who ≠ []) {nd : Nat → List Nat} (hs : ∀ p, p < n → (nd p).Pairwise (· ≤ ·)) : ∀ (rest : List Nat)
    (res : Nat → List Char), (∀ s ∈ rest, s < n) → (∀ p, p < n → res p = [] ∨ res p = txt .who) →
    ∃ res', Ends n (fun p => whoLoop txt p (nd p) rest (res p)) res' ∧ (∀ p, p < n → res' p = [] ∨ res' p = txt .who) ∧
      ∀ p, p < n → (res' p = [] ↔ res p = [] ∧ ∀ s ∈ rest, nd s ≠ [] → (p ∈ nd s ↔ s ∈ nd p)) := by
  intro rest
  induction rest with
  | nil => intro res _ hres; exact ⟨res, .done fun p _ => rfl, hres, by simp⟩
  | cons s rest ih =>
    intro res hl hres
    have hsn := hl s (by simp)
    by_cases h0 : nd s = []
    · obtain ⟨res', h1, h2, h3⟩ := ih res (fun s hs => hl s (by simp [hs])) hres
      refine ⟨res', .bcast hsn (fun p _ => rfl) ?_, h2, ?_⟩
      · simpa only [h0, List.length_nil, Msg.toNum, Nat.lt_irrefl, if_false] using h1
      · intro p hp
        rw [h3 p hp]
        simp [h0]
    · have hpos : 0 < (nd s).length := List.length_pos_iff.2 h0
      obtain ⟨res', h1, h2, h3⟩ := ih (fun p => if decide (p ∈ nd s) = decide (s ∈ nd p) then res p else txt .who) (fun s hs => hl s (by simp [hs])) (by
        intro p hp
        split
        · exact hres p hp
        · exact Or.inr rfl)
      refine ⟨res', .bcast hsn (fun p _ => rfl) ?_, h2, ?_⟩
      · refine .bcast (r := s) (c := (nd s).length) (v := fun p => .nums (Serialize.resize (nd p) (nd s).length 0)) (k := fun p other => .local (do
            let a ← binarySearch other.toNums p
            let b ← binarySearch (nd p) s
            return if a = b then res p else txt .who) fun res => whoLoop txt p (nd p) rest res) hsn (fun p _ => by
          have : 0 < (Msg.num (κ := κ) (nd s).length).toNum := hpos
          rw [if_pos this]
          rfl) ?_
        refine h1.congr (fun p hp => ?_) fun _ _ => rfl
        simp only [Msg.toNums, resize_self, binarySearch, if_pos (hs p hp), if_pos (hs s hsn)]
        rfl
      · intro p hp
        rw [h3 p hp]
        simp only [List.mem_cons, forall_eq_or_imp]
        by_cases hd : decide (p ∈ nd s) = decide (s ∈ nd p)
        · rw [if_pos hd]
          rw [decide_eq_decide] at hd
          simp [hd]
        · rw [if_neg hd]
          rw [decide_eq_decide] at hd
          exact ⟨fun h => absurd h.1 ht, fun h => absurd (h.2.1 h0) hd⟩

/-- Tables that can be read without error: an entry for each neighbour, numbers in range, neighbours in range. -/
structure Readable (n : Nat) (H : Nat → List κ) (nd : Nat → List Nat) (ids : Nat → List (List Nat)) : Prop where
  lt : ∀ p, p < n → ∀ q ∈ nd p, q < n
  len : ∀ p, p < n → (ids p).length = (nd p).length
  ids_lt : ∀ p, p < n → ∀ l ∈ ids p, ∀ i ∈ l, i < (H p).length

/-- The hashes of a list of elements. -/
def hs [Inhabited κ] (H : List κ) (l : List Nat) : List κ := l.map fun i => H.getD i default

theorem mapM_hs [Inhabited κ] {H : List κ} : ∀ {l : List Nat}, (∀ i ∈ l, i < H.length) → l.mapM (fun i => rd H i) = .ok (hs H l)
  | [], _ => rfl
  | a :: l, h => by
    rw [List.mapM_cons, mapM_hs fun i hi => h i (by simp [hi]), rdG (h a (by simp)) default]
    rfl

theorem mapM_hs' [Inhabited κ] (dbg : Bool) {H : List κ} {l : List Nat} (h : ∀ i ∈ l, i < H.length) :
    l.mapM (fun i => do Res.assert dbg (i < H.length); rd H i) = .ok (hs H l) := by
  rw [← mapM_hs h]
  induction l with
  | nil => rfl
  | cons a l ih =>
    rw [List.mapM_cons, List.mapM_cons, ih fun i hi => h i (by simp [hi]), Res.assert_true dbg (h a (by simp))]
    rfl

section
variable [DecidableEq κ] [Inhabited κ]

theorem compare_spec (txt : Err κ → List Char) (ht : ∀ e, txt e ≠ []) {rank s k : Nat} {H : List κ} {nd : List Nat} {ids : List (List Nat)} (hlen : ids.length = nd.length)
    (hlt : ∀ l ∈ ids, ∀ i ∈ l, i < H.length) (hnd : nd.Nodup) (recv : List κ) :
    (∃ t, compare txt rank H nd ids s k recv = .ok t ∧ (t = [] ↔ ∃ j, nd[j]? = some s ∧ recv = hs H (ids.getD j []))) ∨
    (compare txt rank H nd ids s k recv = .ub ∧ nd.length ≤ k ∧ ∃ j, nd[j]? = some s ∧ recv.length ≠ (ids.getD j []).length) := by
  unfold compare
  cases h : nd.idxOf? s with
  | none =>
    refine Or.inl ⟨_, rfl, fun e => absurd e (ht _), ?_⟩
    rintro ⟨j, hj, -⟩
    rw [List.idxOf?_eq_none_iff] at h
    exact absurd (List.mem_of_getElem? hj) h
  | some kk =>
    have hk0 : nd[kk]? = some s := by
      rw [List.idxOf?, List.findIdx?_eq_some_iff_getElem] at h
      obtain ⟨h1, h2, -⟩ := h
      rw [List.getElem?_eq_getElem h1]
      simpa using h2
    have huniq : ∀ j, nd[j]? = some s → j = kk := by
      intro j hj
      obtain ⟨h1, h2⟩ := List.getElem?_eq_some_iff.1 hj
      obtain ⟨h3, h4⟩ := List.getElem?_eq_some_iff.1 hk0
      exact (List.Nodup.getElem_inj_iff hnd).1 (h2.trans h4.symm)
    have hkl : kk < ids.length := by rw [hlen]; exact (List.getElem?_eq_some_iff.1 hk0).1
    dsimp only
    rw [rdG hkl [], Res.bind_eq, Res.bind_ok]
    by_cases hc : recv.length ≠ (ids.getD kk []).length
    · rw [if_pos hc]
      by_cases hk : k < ids.length
      · left
        refine ⟨txt (.count s rank recv.length (ids.getD k []).length), by rw [rdG hk []]; rfl, fun e => absurd e (ht _), ?_⟩
        rintro ⟨j, hj, e⟩
        rw [huniq j hj] at e
        exact absurd (by rw [e, hs, List.length_map]) hc
      · right
        exact ⟨by rw [rd_ge (by omega)]; rfl, by omega, kk, hk0, hc⟩
    · rw [if_neg hc]
      left
      refine ⟨if recv = hs H (ids.getD kk []) then [] else txt (.hashes s rank (recv.zip (hs H (ids.getD kk [])))), ?_, ?_⟩
      · rw [mapM_hs (hlt _ (by rw [List.getD_eq_getElem?_getD, List.getElem?_eq_getElem hkl]; exact List.getElem_mem hkl))]
        rfl
      · constructor
        · intro e
          by_cases he : recv = hs H (ids.getD kk [])
          · exact ⟨kk, hk0, he⟩
          · rw [if_neg he] at e; exact absurd e (ht _)
        · rintro ⟨j, hj, e⟩
          rw [huniq j hj] at e
          rw [if_pos e]

/-- The `k`-th neighbour of process `s`. -/
def nbrAt (nd : Nat → List Nat) (s k : Nat) : Nat := (nd s).getD k 0

/-- The receiver agrees with the `k`-th list of process `s`. -/
def PairOK (H : Nat → List κ) (nd : Nat → List Nat) (ids : Nat → List (List Nat)) (s k : Nat) : Prop :=
  ∃ j, (nd (nbrAt nd s k))[j]? = some s ∧ hs (H s) ((ids s).getD k []) = hs (H (nbrAt nd s k)) ((ids (nbrAt nd s k)).getD j [])

/-- The situation in which the report is undefined. -/
def Bug (nd : Nat → List Nat) (ids : Nat → List (List Nat)) (s k : Nat) : Prop :=
  (nd (nbrAt nd s k)).length ≤ k ∧ ∃ j, (nd (nbrAt nd s k))[j]? = some s ∧ ((ids s).getD k []).length ≠ ((ids (nbrAt nd s k)).getD j []).length

/-- One turn of the loop up to the comparison. -/
theorem pairLoop_step (dbg : Bool) (txt : Err κ → List Char) {H : Nat → List κ} {nd : Nat → List Nat} {ids : Nat → List (List Nat)}
    (hr : Readable n H nd ids) {s : Nat} (hs0 : s < n) {k : Nat} (hkl : k < (nd s).length) (ks : List Nat) (res : Nat → List Char)
    {P : (Nat → Coll (Msg κ) (List Char)) → Prop}
    (hP : ∀ {ps : Nat → Coll (Msg κ) (List Char)} {r c : Nat} {v : Nat → Msg κ} {k : Nat → Msg κ → Coll (Msg κ) (List Char)}, r < n →
      (∀ p, p < n → ps p = .bcast r c (v p) (k p)) → P (fun p => k p (v r)) → P ps)
    (h : P (fun p => .local (if p = nbrAt nd s k ∧ res p = [] then compare txt p (H p) (nd p) (ids p) s k (hs (H s) ((ids s).getD k [])) else .ok (res p)) fun res =>
      pairLoop dbg txt p (H p) (nd p) (ids p) s ks res)) :
    P (fun p => pairLoop dbg txt p (H p) (nd p) (ids p) s (k :: ks) (res p)) := by
  have hki : k < (ids s).length := by rw [hr.len s hs0]; exact hkl
  have hprog : ∀ p, p < n → pairLoop dbg txt p (H p) (nd p) (ids p) s (k :: ks) (res p) =
      .bcast s 1 (.num (if p = s then nbrAt nd s k else 0)) fun q =>
      .bcast s 1 (.num (if p = s then hs (H s) ((ids s).getD k []) else []).length) fun size =>
      .bcast s size.toNum (.pts (if p = s then hs (H s) ((ids s).getD k []) else [])) fun recv =>
      .local (if p = q.toNum ∧ res p = [] then compare txt p (H p) (nd p) (ids p) s k recv.toPts else .ok (res p)) fun res =>
      pairLoop dbg txt p (H p) (nd p) (ids p) s ks res := by
    intro p hp
    by_cases hps : p = s
    · subst hps
      have e1 : rd (nd p) k = .ok (nbrAt nd p k) := rdG hkl 0
      have e2 : rd (ids p) k = .ok ((ids p).getD k []) := rdG hki []
      have e3 := mapM_hs' dbg (hr.ids_lt p hp _ (getD_mem_list hki []))
      rw [pairLoop]
      simp only [if_true, e1, Coll.local, e2, Res.bind_eq, Res.bind_ok]
      simp only [Res.bind_eq] at e3
      rw [e3]
    · rw [pairLoop]
      simp only [if_neg hps, Coll.local]
  refine hP hs0 hprog ?_
  refine hP hs0 (fun p _ => rfl) ?_
  refine hP hs0 (fun p _ => rfl) ?_
  simp only [if_true, Msg.toNum, Msg.toPts]
  exact h

theorem pairLoop_spec (dbg : Bool) (txt : Err κ → List Char) (ht : ∀ e, txt e ≠ []) {H : Nat → List κ} {nd : Nat → List Nat} {ids : Nat → List (List Nat)}
    (hr : Readable n H nd ids) (hnd : ∀ p, p < n → (nd p).Nodup) {s : Nat} (hs0 : s < n) : ∀ (ks : List Nat) (res : Nat → List Char), (∀ k ∈ ks, k < (nd s).length) →
    (∃ res', Ends n (fun p => pairLoop dbg txt p (H p) (nd p) (ids p) s ks (res p)) res' ∧
      ((∀ p, p < n → res' p = []) ↔ (∀ p, p < n → res p = []) ∧ ∀ k ∈ ks, PairOK H nd ids s k)) ∨
    (Fails n (fun p => pairLoop dbg txt p (H p) (nd p) (ids p) s ks (res p)) ∧ ∃ k ∈ ks, Bug nd ids s k) := by
  intro ks
  induction ks with
  | nil => intro res _; exact Or.inl ⟨res, .done fun p _ => rfl, by simp⟩
  | cons k ks ih =>
    intro res hk
    have hkl := hk k (by simp)
    have hq : nbrAt nd s k < n := hr.lt s hs0 _ (getD_mem_list hkl 0)
    generalize hqe : nbrAt nd s k = q at hq
    have lift := fun {P : (Nat → Coll (Msg κ) (List Char)) → Prop} => pairLoop_step dbg txt hr hs0 hkl ks res (P := P)
    rw [hqe] at lift
    have liftE : ∀ {a : Nat → List Char}, _ → Ends n (fun p => pairLoop dbg txt p (H p) (nd p) (ids p) s (k :: ks) (res p)) a :=
      fun {a} h => lift (P := fun ps => Ends n ps a) (fun h1 h2 h3 => .bcast h1 h2 h3) h
    have liftF : _ → Fails n (fun p => pairLoop dbg txt p (H p) (nd p) (ids p) s (k :: ks) (res p)) :=
      fun h => lift (P := fun ps => Fails n ps) (fun h1 h2 h3 => .bcast h1 h2 h3) h
    have ih' := fun res => ih res fun k hk' => hk k (by simp [hk'])
    by_cases hrq : res q = []
    · rcases compare_spec txt ht (rank := q) (s := s) (k := k) (hr.len q hq) (hr.ids_lt q hq) (hnd q hq) (hs (H s) ((ids s).getD k [])) with ⟨t, h1, h2⟩ | ⟨h1, h2, j, h3, h4⟩
      · have hstep : ∀ p, p < n → pairLoop dbg txt p (H p) (nd p) (ids p) s ks (if p = q then t else res p) =
            .local (if p = q ∧ res p = [] then compare txt p (H p) (nd p) (ids p) s k (hs (H s) ((ids s).getD k [])) else .ok (res p)) fun res =>
              pairLoop dbg txt p (H p) (nd p) (ids p) s ks res := by
          intro p hp
          by_cases hpq : p = q
          · subst hpq
            rw [if_pos rfl, if_pos ⟨rfl, hrq⟩, h1]; rfl
          · rw [if_neg hpq, if_neg (fun h => hpq h.1)]; rfl
        have hall : (∀ p, p < n → (if p = q then t else res p) = []) ↔ (∀ p, p < n → res p = []) ∧ PairOK H nd ids s k := by
          have hPO : PairOK H nd ids s k ↔ t = [] := by rw [h2, PairOK, hqe]
          rw [hPO]
          constructor
          · intro h
            refine ⟨fun p hp => ?_, by simpa using h q hq⟩
            by_cases hpq : p = q
            · rw [hpq, hrq]
            · simpa [hpq] using h p hp
          · rintro ⟨h, rfl⟩ p hp
            split
            · rfl
            · exact h p hp
        rcases ih' fun p => if p = q then t else res p with ⟨res', e, hiff⟩ | ⟨hf, k', hk', hb⟩
        · refine Or.inl ⟨res', liftE (e.congr hstep fun _ _ => rfl), ?_⟩
          rw [hiff, hall]
          simp only [List.mem_cons, forall_eq_or_imp, and_assoc]
        · exact Or.inr ⟨liftF (hf.congr hstep), k', by simp [hk'], hb⟩
      · right
        refine ⟨liftF (.ub hq (by rw [if_pos ⟨rfl, hrq⟩, h1]; rfl)), k, by simp, ?_⟩
        rw [Bug, hqe]
        refine ⟨h2, j, h3, ?_⟩
        rwa [hs, List.length_map] at h4
    · have hstep : ∀ p, p < n → pairLoop dbg txt p (H p) (nd p) (ids p) s ks (res p) =
            .local (if p = q ∧ res p = [] then compare txt p (H p) (nd p) (ids p) s k (hs (H s) ((ids s).getD k [])) else .ok (res p)) fun res =>
              pairLoop dbg txt p (H p) (nd p) (ids p) s ks res := by
        intro p hp
        rw [if_neg (fun h : p = q ∧ res p = [] => hrq (h.1 ▸ h.2))]; rfl
      rcases ih' res with ⟨res', e, hiff⟩ | ⟨hf, k', hk', hb⟩
      · refine Or.inl ⟨res', liftE (e.congr hstep fun _ _ => rfl), ?_⟩
        rw [hiff]
        exact ⟨fun h => absurd (h.1 q hq) hrq, fun h => absurd (h.1 q hq) hrq⟩
      · exact Or.inr ⟨liftF (hf.congr hstep), k', by simp [hk'], hb⟩

theorem pairLoop_fails (dbg : Bool) (txt : Err κ → List Char) (ht : ∀ e, txt e ≠ []) {H : Nat → List κ} {nd : Nat → List Nat} {ids : Nat → List (List Nat)}
    (hr : Readable n H nd ids) (hnd : ∀ p, p < n → (nd p).Nodup) {s : Nat} (hs0 : s < n) {k : Nat} (hb : Bug nd ids s k) : ∀ (ks : List Nat) (res : Nat → List Char),
    (∀ k ∈ ks, k < (nd s).length) → k ∈ ks → res (nbrAt nd s k) = [] → Fails n (fun p => pairLoop dbg txt p (H p) (nd p) (ids p) s ks (res p)) := by
  intro ks
  induction ks with
  | nil => intro _ _ h; simp at h
  | cons k0 ks ih =>
    intro res hk hmem hres
    have hk0 := hk k0 (by simp)
    refine pairLoop_step dbg txt hr hs0 hk0 ks res (P := fun ps => Fails n ps) (fun h1 h2 h3 => .bcast h1 h2 h3) ?_
    have hlt := fun k (h : k < (nd s).length) => hr.lt s hs0 _ (getD_mem_list h 0)
    have hq0 : nbrAt nd s k0 < n := hlt k0 hk0
    by_cases hkk : k = k0
    · subst hkk
      obtain ⟨b1, j, b2, b3⟩ := hb
      refine .ub (p := nbrAt nd s k) hq0 ?_
      rw [if_pos ⟨rfl, hres⟩]
      rcases compare_spec txt ht (rank := nbrAt nd s k) (s := s) (k := k) (hr.len _ hq0) (hr.ids_lt _ hq0) (hnd _ hq0) (hs (H s) ((ids s).getD k [])) with ⟨t, h1, h2⟩ | ⟨h1, -⟩
      · -- the comparison cannot succeed
        exfalso
        have hkk0 : (nd (nbrAt nd s k)).idxOf? s = some j := by
          rw [List.idxOf?, List.findIdx?_eq_some_iff_getElem]
          obtain ⟨c1, c2⟩ := List.getElem?_eq_some_iff.1 b2
          refine ⟨c1, by simpa using c2, fun i hi => ?_⟩
          have : (nd (nbrAt nd s k))[i] ≠ s := by
            intro e
            exact absurd ((List.Nodup.getElem_inj_iff (hnd _ hq0)).1 (e.trans c2.symm)) (by omega)
          simpa using this
        have hjl : j < (ids (nbrAt nd s k)).length := by rw [hr.len _ hq0]; exact (List.getElem?_eq_some_iff.1 b2).1
        unfold compare at h1
        rw [hkk0] at h1
        dsimp only at h1
        rw [rdG hjl [], Res.bind_eq, Res.bind_ok, if_pos (by rw [hs, List.length_map]; exact b3), rd_ge (by rw [hr.len _ hq0]; exact b1)] at h1
        cases h1
      · rw [h1]; rfl
    · have hmem' : k ∈ ks := (List.mem_cons.1 hmem).resolve_left hkk
      have hkl := hk k hmem
      have hne : nbrAt nd s k ≠ nbrAt nd s k0 := by
        intro e
        simp only [nbrAt, List.getD_eq_getElem?_getD, List.getElem?_eq_getElem hkl, List.getElem?_eq_getElem hk0, Option.getD_some] at e
        exact hkk ((List.Nodup.getElem_inj_iff (hnd s hs0)).1 e)
      by_cases hrq : res (nbrAt nd s k0) = []
      · rcases compare_spec txt ht (rank := nbrAt nd s k0) (s := s) (k := k0) (hr.len _ hq0) (hr.ids_lt _ hq0) (hnd _ hq0) (hs (H s) ((ids s).getD k0 [])) with
          ⟨t, h1, -⟩ | ⟨h1, -⟩
        · refine (ih (fun p => if p = nbrAt nd s k0 then t else res p) (fun k hk' => hk k (by simp [hk'])) hmem' (by rw [if_neg hne]; exact hres)).congr fun p hp => ?_
          by_cases hpq : p = nbrAt nd s k0
          · subst hpq
            rw [if_pos rfl, if_pos ⟨rfl, hrq⟩, h1]; rfl
          · rw [if_neg hpq, if_neg (fun h => hpq h.1)]; rfl
        · exact .ub hq0 (by rw [if_pos ⟨rfl, hrq⟩, h1]; rfl)
      · refine (ih res (fun k hk' => hk k (by simp [hk'])) hmem' hres).congr fun p hp => ?_
        rw [if_neg (fun h : p = nbrAt nd s k0 ∧ res p = [] => hrq (h.1 ▸ h.2))]; rfl

theorem commInfo_fails (dbg : Bool) (txt : Err κ → List Char) (ht : ∀ e, txt e ≠ []) (label : List Char) (hn : 0 < n) {H : Nat → List κ} {nd : Nat → List Nat}
    {ids : Nat → List (List Nat)} (hr : Readable n H nd ids) (hnd : ∀ p, p < n → (nd p).Nodup) {s k : Nat} (hs0 : s < n) (hk : k < (nd s).length) (hb : Bug nd ids s k)
    (post : List Nat) : ∀ (pre : List Nat), (∀ r ∈ pre, r < n) → (∀ r ∈ pre, ∀ k, k < (nd r).length → PairOK H nd ids r k) →
    Fails n (fun p => commInfo dbg txt label p n (H p) (nd p) (ids p) (pre ++ s :: post) []) := by
  intro pre
  induction pre with
  | nil =>
    intro _ _
    exact .bcast hs0 (fun p _ => rfl) ((pairLoop_fails dbg txt ht hr hnd hs0 hb (List.range (nd s).length) (fun _ => []) (by simp) (List.mem_range.2 hk) rfl).bind _)
  | cons r pre ih =>
    intro hl hok
    have hrn := hl r (by simp)
    rcases pairLoop_spec dbg txt ht hr hnd hrn (List.range (nd r).length) (fun _ => []) (by simp) with ⟨res', e, hiff⟩ | ⟨hf, -⟩
    · obtain ⟨t, e2, ht2, -⟩ := reduceMax_spec (κ := κ) dbg hn res'
      have htn : t = [] := by
        rw [ht2, hiff]
        exact ⟨fun _ _ => rfl, fun k hk => hok r (by simp) k (List.mem_range.1 hk)⟩
      refine .bcast hrn (fun p _ => rfl) (e.bindFails (e2.bindFails ((ih (fun s hs => hl s (by simp [hs])) fun s hs => hok s (by simp [hs])).congr fun p _ => ?_)))
      rw [if_neg (by simpa using htn), htn]
      rfl
    · exact .bcast hrn (fun p _ => rfl) (hf.bind _)

theorem commInfo_spec (dbg : Bool) (txt : Err κ → List Char) (ht : ∀ e, txt e ≠ []) (label : List Char) (hn : 0 < n) {H : Nat → List κ} {nd : Nat → List Nat}
    {ids : Nat → List (List Nat)} (hr : Readable n H nd ids) (hnd : ∀ p, p < n → (nd p).Nodup) : ∀ (rest : List Nat), (∀ s ∈ rest, s < n) →
    (∃ t, Ends n (fun p => commInfo dbg txt label p n (H p) (nd p) (ids p) rest []) (fun _ => t) ∧ (t = [] ∨ ∃ t', t = label ++ " : ".toList ++ t') ∧
      (t = [] ↔ ∀ s ∈ rest, ∀ k, k < (nd s).length → PairOK H nd ids s k)) ∨
    (Fails n (fun p => commInfo dbg txt label p n (H p) (nd p) (ids p) rest []) ∧ ∃ s ∈ rest, ∃ k, k < (nd s).length ∧ Bug nd ids s k) := by
  intro rest
  induction rest with
  | nil => intro _; exact Or.inl ⟨[], .done fun _ _ => rfl, Or.inl rfl, by simp⟩
  | cons s rest ih =>
    intro hl
    have hsn := hl s (by simp)
    rcases pairLoop_spec dbg txt ht hr hnd hsn (List.range (nd s).length) (fun _ => []) (by simp) with ⟨res', e, hiff⟩ | ⟨hf, k, hk, hb⟩
    · obtain ⟨t, e2, ht2, -⟩ := reduceMax_spec (κ := κ) dbg hn res'
      have hPs : t = [] ↔ ∀ k, k < (nd s).length → PairOK H nd ids s k := by
        rw [ht2, hiff]; simp
      by_cases htn : t = []
      · rcases ih fun s hs => hl s (by simp [hs]) with ⟨t', e3, h1, h2⟩ | ⟨hf, s', hs', hb⟩
        · left
          refine ⟨t', .bcast hsn (fun p _ => rfl) (e.bind (e2.bind (e3.congr (fun p _ => ?_) fun _ _ => rfl))), h1, ?_⟩
          · rw [if_neg (by simpa using htn), htn]
          · rw [h2]
            simp only [List.mem_cons, forall_eq_or_imp]
            exact ⟨fun h => ⟨hPs.1 htn, h⟩, fun h => h.2⟩
        · right
          refine ⟨.bcast hsn (fun p _ => rfl) (e.bindFails (e2.bindFails (hf.congr fun p _ => ?_))), s', by simp [hs'], hb⟩
          rw [if_neg (by simpa using htn), htn]
      · left
        refine ⟨label ++ " : ".toList ++ t, .bcast hsn (fun p _ => rfl) (e.bind (e2.bind (.done fun p _ => ?_))), Or.inr ⟨t, rfl⟩, ?_⟩
        · rw [if_pos htn]
        · constructor
          · intro h
            have := congrArg List.length h
            simp at this
          · intro h
            exact absurd (hPs.2 (h s (by simp))) htn
    · right
      exact ⟨.bcast hsn (fun p _ => rfl) (hf.bind _), s, by simp, k, List.mem_range.1 hk, hb⟩

variable [LT κ] [DecidableLT κ]

/-- Process `p` finds nothing wrong with process `s`. -/
def FoundOK (txt : Err κ → List Char) (srt : List κ → List κ) (noEmpty : Bool) (H : Nat → List κ) (nd : Nat → List Nat) (ids : Nat → List (List Nat)) (p s : Nat) : Prop :=
  found txt srt p (H p) (nd p) (ids p) noEmpty s (srt (H s)) = .ok []

theorem found_ok (txt : Err κ → List Char) (srt : List κ → List κ) (noEmpty : Bool) {rank s : Nat} {H : List κ} {nd : List Nat} {ids : List (List Nat)}
    (hlen : ids.length = nd.length) (hlt : ∀ l ∈ ids, ∀ i ∈ l, i < H.length) (other : List κ) : ∃ t, found txt srt rank H nd ids noEmpty s other = .ok t := by
  unfold found
  dsimp only
  cases h : nd.idxOf? s with
  | none => exact ⟨_, rfl⟩
  | some k =>
    have hk : k < ids.length := by
      rw [List.idxOf?, List.findIdx?_eq_some_iff_getElem] at h
      rw [hlen]; exact h.1
    dsimp only
    split
    · exact ⟨_, rfl⟩
    · split
      · rw [rdG hk [], Res.bind_eq, Res.bind_ok]
        split
        · exact ⟨_, rfl⟩
        · rw [mapM_hs (hlt _ (getD_mem_list hk []))]
          exact ⟨_, rfl⟩
      · exact ⟨_, rfl⟩

theorem allFound_spec (dbg : Bool) (txt : Err κ → List Char) (srt : List κ → List κ) (label : List Char) (noEmpty : Bool) (hn : 0 < n) {H : Nat → List κ}
    {nd : Nat → List Nat} {ids : Nat → List (List Nat)} (hr : Readable n H nd ids) : ∀ (rest : List Nat), (∀ s ∈ rest, s < n) →
    ∃ t, Ends n (fun p => allFound dbg txt srt label p n (H p) (nd p) (ids p) noEmpty rest []) (fun _ => t) ∧ (t = [] ∨ ∃ t', t = label ++ " : ".toList ++ t') ∧
      (t = [] ↔ ∀ s ∈ rest, ∀ p, p < n → p ≠ s → FoundOK txt srt noEmpty H nd ids p s) := by
  intro rest
  induction rest with
  | nil => intro _; exact ⟨[], .done fun _ _ => rfl, Or.inl rfl, by simp⟩
  | cons s rest ih =>
    intro hl
    have hsn := hl s (by simp)
    have hex : ∀ p, ∃ t, p < n → found txt srt p (H p) (nd p) (ids p) noEmpty s (srt (H s)) = .ok t := by
      intro p
      by_cases hp : p < n
      · obtain ⟨t, ht⟩ := found_ok txt srt noEmpty (rank := p) (s := s) (hr.len p hp) (hr.ids_lt p hp) (srt (H s))
        exact ⟨t, fun _ => ht⟩
      · exact ⟨[], fun h => absurd h hp⟩
    choose r hrr using hex
    obtain ⟨t, e2, ht2, -⟩ := reduceMax_spec (κ := κ) dbg hn fun p => if p ≠ s then r p else []
    have hPs : t = [] ↔ ∀ p, p < n → p ≠ s → FoundOK txt srt noEmpty H nd ids p s := by
      rw [ht2]
      refine forall₂_congr fun p hp => ?_
      by_cases hps : p = s
      · simp [hps]
      · simp only [ne_eq, hps, not_false_eq_true, if_true, true_implies, FoundOK, hrr p hp, Res.ok.injEq]
    have hstep : ∀ {f : Nat → List Char → Coll (Msg κ) (List Char)} (p : Nat), p < n → f p (if p ≠ s then r p else []) =
        .local (if p ≠ s ∧ ([] : List Char) = [] then found txt srt p (H p) (nd p) (ids p) noEmpty s (srt (H s)) else .ok []) (f p) := by
      intro f p hp
      by_cases hps : p = s
      · simp [hps, Coll.local]
      · simp [hps, Coll.local, hrr p hp]
    by_cases htn : t = []
    · obtain ⟨t', e3, h1, h2⟩ := ih fun s hs => hl s (by simp [hs])
      refine ⟨t', .bcast hsn (fun p _ => rfl) (.bcast hsn (fun p _ => rfl) ?_), h1, ?_⟩
      · have := e2.bind (f := fun p res => if res ≠ [] then .done (label ++ " : ".toList ++ res) else allFound dbg txt srt label p n (H p) (nd p) (ids p) noEmpty rest res)
          (e3.congr (fun p _ => by rw [if_neg (by simpa using htn), htn]) fun _ _ => rfl)
        exact this.congr (fun p hp => hstep (f := fun p res => (reduceMax dbg p n res).bind fun res =>
          if res ≠ [] then .done (label ++ " : ".toList ++ res) else allFound dbg txt srt label p n (H p) (nd p) (ids p) noEmpty rest res) p hp) fun _ _ => rfl
      · rw [h2]
        simp only [List.mem_cons, forall_eq_or_imp]
        exact ⟨fun h => ⟨hPs.1 htn, h⟩, fun h => h.2⟩
    · refine ⟨label ++ " : ".toList ++ t, .bcast hsn (fun p _ => rfl) (.bcast hsn (fun p _ => rfl) ?_), Or.inr ⟨t, rfl⟩, ?_⟩
      · have := e2.bind (f := fun p res => if res ≠ [] then .done (label ++ " : ".toList ++ res) else allFound dbg txt srt label p n (H p) (nd p) (ids p) noEmpty rest res)
          (.done fun p _ => by rw [if_pos htn])
        exact this.congr (fun p hp => hstep (f := fun p res => (reduceMax dbg p n res).bind fun res =>
          if res ≠ [] then .done (label ++ " : ".toList ++ res) else allFound dbg txt srt label p n (H p) (nd p) (ids p) noEmpty rest res) p hp) fun _ _ => rfl
      · constructor
        · intro h
          have := congrArg List.length h
          simp at this
        · intro h
          exact absurd (hPs.2 (h s (by simp))) htn
end
end Verif.Check
