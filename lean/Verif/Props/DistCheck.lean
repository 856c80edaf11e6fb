import Verif.Proofs.DistCheck
import Verif.Spec.DistCheck
import Verif.Props.Comm
/-
Property C50: the check of a distributed mesh reports "ok" on all processes exactly if their data fit together, and otherwise the same message on all.
-/
namespace Verif.Check
open Verif Verif.Mesh Verif.Exch
variable {R κ : Type} {n : Nat}

section
variable [LinearOrder κ] [Inhabited κ]

theorem inter_spec : ∀ (l m : List κ), l.Pairwise (· < ·) → m.Pairwise (· < ·) → inter l m = l.filter fun x => decide (x ∈ m) := by
  intro l m
  induction l, m using inter.induct with
  | case1 m => intro _ _; rw [inter]; rfl
  | case2 a l => intro _ _; rw [inter]; simp
  | case3 a l b m hab ih =>
    intro hl hm
    rw [inter, if_pos hab, ih (List.pairwise_cons.1 hl).2 hm, List.filter_cons, if_neg]
    simp only [decide_eq_true_eq, List.mem_cons, not_or]
    refine ⟨hab.ne, fun h => ?_⟩
    exact absurd ((List.pairwise_cons.1 hm).1 a h) (lt_asymm hab)
  | case4 a l b m hab hba ih =>
    intro hl hm
    rw [inter, if_neg hab, if_pos hba, ih hl (List.pairwise_cons.1 hm).2]
    refine List.filter_congr fun x hx => ?_
    have : x ≠ b := by
      rintro rfl
      rcases List.mem_cons.1 hx with rfl | hx
      · exact lt_irrefl _ hba
      · exact absurd ((List.pairwise_cons.1 hl).1 x hx) hab.elim
    simp [this]
  | case5 a l b m hab hba ih =>
    intro hl hm
    have e : a = b := le_antisymm (not_lt.1 hba) (not_lt.1 hab)
    subst e
    rw [inter, if_neg hab, if_neg hba, ih (List.pairwise_cons.1 hl).2 (List.pairwise_cons.1 hm).2, List.filter_cons, if_pos (by simp)]
    congr 1
    refine List.filter_congr fun x hx => ?_
    have : x ≠ a := ((List.pairwise_cons.1 hl).1 x hx).ne'
    simp [this]

/-- `srt` sorts. -/
def SortsList (srt : List κ → List κ) : Prop := ∀ l, (srt l).Perm l ∧ (srt l).Pairwise (· ≤ ·)

theorem srt_lt {srt : List κ → List κ} (hs : SortsList srt) {l : List κ} (hl : l.Nodup) : (srt l).Pairwise (· < ·) := by
  refine List.Pairwise.imp_of_mem ?_ ((hs l).2.and ((hs l).1.nodup_iff.2 hl))
  intro a b _ _ h
  exact lt_of_le_of_ne h.1 h.2

theorem foundOK_iff (txt : Err κ → List Char) (ht : ∀ e, txt e ≠ []) {srt : List κ → List κ} (hsrt : SortsList srt) {H : Nat → List κ} {nd : Nat → List Nat}
    {ids : Nat → List (List Nat)} (hr : Readable n H nd ids) (hH : ∀ p, p < n → (H p).Nodup) (hnd : ∀ p, p < n → (nd p).Nodup) {p s : Nat} (hp : p < n) (hs0 : s < n) :
    FoundOK txt srt true H nd ids p s ↔ (s ∉ nd p → ∀ x ∈ H p, x ∉ H s) ∧ ∀ k, (nd p)[k]? = some s →
      hs (H p) ((ids p).getD k []) ≠ [] ∧ (hs (H p) ((ids p).getD k [])).Nodup ∧ ∀ x, x ∈ hs (H p) ((ids p).getD k []) ↔ x ∈ H p ∧ x ∈ H s := by
  have hmem : ∀ x, x ∈ inter (srt (H p)) (srt (H s)) ↔ x ∈ H p ∧ x ∈ H s := by
    intro x
    rw [inter_spec _ _ (srt_lt hsrt (hH p hp)) (srt_lt hsrt (hH s hs0)), List.mem_filter, decide_eq_true_eq, (hsrt _).1.mem_iff, (hsrt _).1.mem_iff]
  have hlt : (inter (srt (H p)) (srt (H s))).Pairwise (· < ·) := by
    rw [inter_spec _ _ (srt_lt hsrt (hH p hp)) (srt_lt hsrt (hH s hs0))]
    exact (srt_lt hsrt (hH p hp)).filter _
  unfold FoundOK found
  dsimp only
  generalize inter (srt (H p)) (srt (H s)) = common at hmem hlt
  cases h : (nd p).idxOf? s with
  | none =>
    have hns : s ∉ nd p := List.idxOf?_eq_none_iff.1 h
    have h2 : ∀ k, (nd p)[k]? ≠ some s := fun k hk => hns (List.mem_of_getElem? hk)
    simp only [hns, not_false_eq_true, true_implies, h2, false_implies, implies_true, and_true, Res.ok.injEq]
    constructor
    · intro he x hx hx'
      rw [if_pos (List.length_pos_of_mem ((hmem x).2 ⟨hx, hx'⟩))] at he
      exact ht _ he
    · intro he
      rw [if_neg]
      intro hc
      obtain ⟨x, hx⟩ := List.exists_mem_of_length_pos hc
      exact he x ((hmem x).1 hx).1 ((hmem x).1 hx).2
  | some kk =>
    have hk0 : (nd p)[kk]? = some s := by
      rw [List.idxOf?, List.findIdx?_eq_some_iff_getElem] at h
      obtain ⟨h1, h2, -⟩ := h
      rw [List.getElem?_eq_getElem h1]
      simpa using h2
    have huniq : ∀ j, (nd p)[j]? = some s → j = kk := by
      intro j hj
      obtain ⟨h1, h2⟩ := List.getElem?_eq_some_iff.1 hj
      obtain ⟨h3, h4⟩ := List.getElem?_eq_some_iff.1 hk0
      exact (List.Nodup.getElem_inj_iff (hnd p hp)).1 (h2.trans h4.symm)
    have hkl : kk < (ids p).length := by rw [hr.len p hp]; exact (List.getElem?_eq_some_iff.1 hk0).1
    have hsn : s ∈ nd p := List.mem_of_getElem? hk0
    have hrw : (∀ k, (nd p)[k]? = some s → hs (H p) ((ids p).getD k []) ≠ [] ∧ (hs (H p) ((ids p).getD k [])).Nodup ∧
        ∀ x, x ∈ hs (H p) ((ids p).getD k []) ↔ x ∈ H p ∧ x ∈ H s) ↔
        hs (H p) ((ids p).getD kk []) ≠ [] ∧ (hs (H p) ((ids p).getD kk [])).Nodup ∧ ∀ x, x ∈ hs (H p) ((ids p).getD kk []) ↔ x ∈ H p ∧ x ∈ H s :=
      ⟨fun h => h kk hk0, fun h k hk => by rw [huniq k hk]; exact h⟩
    simp only [hsn, not_true_eq_false, false_implies, true_and]
    rw [hrw]
    have hlen : (hs (H p) ((ids p).getD kk [])).length = ((ids p).getD kk []).length := by rw [hs, List.length_map]
    rw [rdG hkl [], Res.bind_eq, Res.bind_ok, mapM_hs (hr.ids_lt p hp _ (getD_mem_list hkl [])), Res.bind_eq, Res.bind_ok]
    by_cases hc : common.length = 0
    · rw [if_pos hc]
      refine ⟨fun e => absurd (Res.ok.inj e) (ht _), fun h => ?_⟩
      obtain ⟨x, hx⟩ := List.exists_mem_of_ne_nil _ h.1
      have := (hmem x).2 ((h.2.2 x).1 hx)
      rw [List.length_eq_zero_iff.1 hc] at this
      simp at this
    · rw [if_neg hc, if_pos (Nat.pos_of_ne_zero hc)]
      by_cases hne : ((ids p).getD kk []).length ≠ common.length
      · rw [if_pos hne]
        refine ⟨fun e => absurd (Res.ok.inj e) (ht _), fun h => ?_⟩
        have hpm : (hs (H p) ((ids p).getD kk [])).Perm common := (List.perm_ext_iff_of_nodup h.2.1 (hlt.imp fun h => ne_of_lt h)).2 fun x => by rw [h.2.2, hmem]
        exact absurd (by rw [← hlen, hpm.length_eq]) hne
      · rw [if_neg hne]
        have hsc : srt (hs (H p) ((ids p).getD kk [])) = common ↔ hs (H p) ((ids p).getD kk []) ≠ [] ∧ (hs (H p) ((ids p).getD kk [])).Nodup ∧
            ∀ x, x ∈ hs (H p) ((ids p).getD kk []) ↔ x ∈ H p ∧ x ∈ H s := by
          constructor
          · intro e
            have hpm := (hsrt (hs (H p) ((ids p).getD kk []))).1
            rw [e] at hpm
            refine ⟨fun e0 => hc ?_, hpm.nodup_iff.1 (hlt.imp fun h => ne_of_lt h), fun x => by rw [← hpm.mem_iff, hmem]⟩
            rw [hpm.length_eq, e0]; rfl
          · rintro ⟨-, h2, h3⟩
            refine (srt_lt hsrt h2).eq_of_mem_iff hlt fun x => ?_
            rw [(hsrt _).1.mem_iff, h3, hmem]
        rw [← hsc]
        by_cases he : srt (hs (H p) ((ids p).getD kk [])) = common
        · rw [if_neg (fun h => h he)]
          exact ⟨fun _ => he, fun _ => rfl⟩
        · simp only [ne_eq, he, not_false_eq_true, if_true, iff_false]
          exact fun e => ht _ (Res.ok.inj e)

/-- The names of the nodes of process `p`. -/
def names (D : Nat) (mesh : Nat → Tess R) (gid : Nat → Nat → κ) (p : Nat) : List κ := (List.range (numNodes D (mesh p))).map (gid p)

theorem hs_names {D : Nat} {mesh : Nat → Tess R} {gid : Nat → Nat → κ} {p : Nat} {l : List Nat} (h : ∀ i ∈ l, i < numNodes D (mesh p)) :
    hs (names D mesh gid p) l = l.map (gid p) := by
  refine List.map_congr_left fun i hi => ?_
  simp [names, h i hi]

theorem fit_iff {D : Nat} {mesh : Nat → Tess R} {gid : Nat → Nat → κ} (hT : Tables D n mesh gid) (txt : Err κ → List Char) (ht : ∀ e, txt e ≠ []) {srt : List κ → List κ}
    (hsrt : SortsList srt) (hr : Readable n (names D mesh gid) (fun p => (mesh p).neighborDomains) (fun p => (mesh p).sharedNodes)) :
    ((∀ p, p < n → ∀ s, s < n → (mesh s).neighborDomains ≠ [] → (p ∈ (mesh s).neighborDomains ↔ s ∈ (mesh p).neighborDomains)) ∧
      (∀ s, s < n → ∀ k, k < (mesh s).neighborDomains.length → PairOK (names D mesh gid) (fun p => (mesh p).neighborDomains) (fun p => (mesh p).sharedNodes) s k) ∧
      ∀ s, s < n → ∀ p, p < n → p ≠ s → FoundOK txt srt true (names D mesh gid) (fun p => (mesh p).neighborDomains) (fun p => (mesh p).sharedNodes) p s) ↔
    FitTogether D n mesh gid := by
  have hnd : ∀ p, p < n → (mesh p).neighborDomains.Nodup := fun p hp => (hT.sorted p hp).imp fun h => ne_of_lt h
  have hH : ∀ p, p < n → (names D mesh gid p).Nodup := by
    intro p hp
    refine List.Nodup.map_on ?_ List.nodup_range
    intro a ha b hb h
    exact hT.inj p hp a b (List.mem_range.1 ha) (List.mem_range.1 hb) h
  have hlist : ∀ p, p < n → ∀ (k q : Nat), (mesh p).neighborDomains[k]? = some q → (mesh p).sharedNodes.getD k [] ∈ (mesh p).sharedNodes := by
    intro p hp k q hk
    exact getD_mem_list (by rw [hT.len p hp]; exact (List.getElem?_eq_some_iff.1 hk).1) []
  have hhs : ∀ p, p < n → ∀ (k q : Nat), (mesh p).neighborDomains[k]? = some q → hs (names D mesh gid p) ((mesh p).sharedNodes.getD k []) =
      ((mesh p).sharedNodes.getD k []).map (gid p) := fun p hp k q hk => hs_names (hT.nodes p hp _ (hlist p hp k q hk))
  have hmemN : ∀ p x, x ∈ names D mesh gid p ↔ ∃ a, a < numNodes D (mesh p) ∧ gid p a = x := by
    intro p x; simp [names]
  have huniq : ∀ p, p < n → ∀ (i j q : Nat), (mesh p).neighborDomains[i]? = some q → (mesh p).neighborDomains[j]? = some q → i = j := by
    intro p hp i j q hi hj
    obtain ⟨h1, h2⟩ := List.getElem?_eq_some_iff.1 hi
    obtain ⟨h3, h4⟩ := List.getElem?_eq_some_iff.1 hj
    exact (List.Nodup.getElem_inj_iff (hnd p hp)).1 (h2.trans h4.symm)
  have hat : ∀ p (k q : Nat), (mesh p).neighborDomains[k]? = some q → nbrAt (fun p => (mesh p).neighborDomains) p k = q := by
    intro p k q hk
    simp [nbrAt, List.getD_eq_getElem?_getD, hk]
  constructor
  · rintro ⟨h1, h2, h3⟩
    have sym : ∀ p, p < n → ∀ q ∈ (mesh p).neighborDomains, p ∈ (mesh q).neighborDomains := by
      intro p hp q hq
      have hqn := (hT.lt p hp q hq).1
      exact (h1 q hqn p hp (List.ne_nil_of_mem hq)).1 hq
    have h3' := fun p hp q hq hpq => (foundOK_iff txt ht hsrt hr hH hnd hp hq).1 (h3 q hq p hp hpq)
    refine ⟨⟨hT.dim, hT.lt, hnd, sym, hT.len, hT.nodes, hT.inj, ?_, ?_, hT.small⟩, ?_⟩
    · intro p hp i q j hi hj
      have hq := (hT.lt p hp q (List.mem_of_getElem? hi)).1
      obtain ⟨j', hj', e⟩ := h2 p hp i (List.getElem?_eq_some_iff.1 hi).1
      rw [hat p i q hi] at hj' e
      rw [huniq q hq j' j p hj' hj] at e
      rwa [hhs p hp i q hi, hhs q hq j p hj] at e
    · intro p q hp hq hpq a b ha hb h
      obtain ⟨h4, h5⟩ := h3' p hp q hq hpq
      have hqm : q ∈ (mesh p).neighborDomains := by
        by_contra hqm
        exact h4 hqm (gid p a) ((hmemN p _).2 ⟨a, ha, rfl⟩) ((hmemN q _).2 ⟨b, hb, h.symm⟩)
      obtain ⟨i, hi, he⟩ := List.getElem_of_mem hqm
      have hi' : (mesh p).neighborDomains[i]? = some q := by rw [List.getElem?_eq_getElem hi, he]
      have := ((h5 i hi').2.2 (gid p a)).2 ⟨(hmemN p _).2 ⟨a, ha, rfl⟩, (hmemN q _).2 ⟨b, hb, h.symm⟩⟩
      rw [hhs p hp i q hi'] at this
      obtain ⟨a', ha', e⟩ := List.mem_map.1 this
      have : a' = a := hT.inj p hp _ _ (hT.nodes p hp _ (hlist p hp i q hi') a' ha') ha e
      exact ⟨i, hi', this ▸ ha'⟩
    · intro p hp l hl
      obtain ⟨i, hi, rfl⟩ := List.getElem_of_mem hl
      have hi2 : i < (mesh p).neighborDomains.length := by rw [← hT.len p hp]; exact hi
      have hq := hT.lt p hp _ (List.getElem_mem hi2)
      obtain ⟨h6, h7, -⟩ := (h3' p hp _ hq.1 (Ne.symm hq.2)).2 i (List.getElem?_eq_getElem hi2)
      rw [hhs p hp i _ (List.getElem?_eq_getElem hi2)] at h6 h7
      have e : (mesh p).sharedNodes.getD i [] = (mesh p).sharedNodes[i] := by simp [hi]
      rw [e] at h6 h7
      exact ⟨fun h0 => h6 (by rw [h0]; rfl), h7.of_map⟩
  · rintro ⟨hS, hL⟩
    refine ⟨?_, ?_, ?_⟩
    · intro p hp s hs0 _
      exact ⟨fun h => hS.sym s hs0 p h, fun h => hS.sym p hp s h⟩
    · intro s hs0 k hk
      have hk' : (mesh s).neighborDomains[k]? = some (mesh s).neighborDomains[k] := List.getElem?_eq_getElem hk
      have hqm := List.getElem_mem hk
      generalize (mesh s).neighborDomains[k] = q at hk' hqm
      have hq := (hT.lt s hs0 q hqm).1
      obtain ⟨j, hj, he⟩ := List.getElem_of_mem (hS.sym s hs0 q hqm)
      have hj' : (mesh q).neighborDomains[j]? = some s := by rw [List.getElem?_eq_getElem hj, he]
      refine ⟨j, ?_, ?_⟩
      · rw [hat s k q hk']; exact hj'
      · rw [hat s k q hk', hhs s hs0 k q hk', hhs q hq j s hj']
        exact hS.agree s hs0 k q j hk' hj'
    · intro s hs0 p hp hps
      rw [foundOK_iff txt ht hsrt hr hH hnd hp hs0]
      refine ⟨?_, ?_⟩
      · intro hns x hx hx'
        obtain ⟨a, ha, rfl⟩ := (hmemN p x).1 hx
        obtain ⟨b, hb, e⟩ := (hmemN s _).1 hx'
        obtain ⟨i, hi, -⟩ := hS.complete p s hp hs0 hps a b ha hb e.symm
        exact hns (List.mem_of_getElem? hi)
      · intro k hk
        rw [hhs p hp k s hk]
        have hl := hlist p hp k s hk
        obtain ⟨h6, h7⟩ := hL p hp _ hl
        refine ⟨by simpa using h6, ?_, ?_⟩
        · refine List.Nodup.map_on ?_ h7
          intro a ha b hb h
          exact hT.inj p hp a b (hT.nodes p hp _ hl a ha) (hT.nodes p hp _ hl b hb) h
        · intro x
          constructor
          · intro hx
            refine ⟨?_, ?_⟩
            · obtain ⟨a, ha, rfl⟩ := List.mem_map.1 hx
              exact (hmemN p _).2 ⟨a, hT.nodes p hp _ hl a ha, rfl⟩
            · obtain ⟨j, hj, he⟩ := List.getElem_of_mem (hS.sym p hp s (List.mem_of_getElem? hk))
              have hj' : (mesh s).neighborDomains[j]? = some p := by rw [List.getElem?_eq_getElem hj, he]
              rw [hS.agree p hp k s j hk hj'] at hx
              obtain ⟨b, hb, rfl⟩ := List.mem_map.1 hx
              exact (hmemN s _).2 ⟨b, hT.nodes s hs0 _ (hlist s hs0 j p hj') b hb, rfl⟩
          · rintro ⟨hx, hx'⟩
            obtain ⟨a, ha, rfl⟩ := (hmemN p x).1 hx
            obtain ⟨b, hb, e⟩ := (hmemN s _).1 hx'
            obtain ⟨i, hi, hai⟩ := hS.complete p s hp hs0 hps a b ha hb e.symm
            rw [← huniq p hp i k s hi hk]
            exact List.mem_map.2 ⟨a, hai, rfl⟩

end

section
variable [LinearOrder κ]

theorem hash_spec (dbg : Bool) {D : Nat} {key : List R → κ} {mesh : Nat → Tess R} (hT : Tables D n mesh fun p a => key (node D (mesh p) a))
    {p : Nat} (hp : p < n) : (do
      Res.assert dbg ((mesh p).nodes.length % D = 0)
      (List.range ((mesh p).nodes.length / D)).mapM fun i => do
        let c ← (List.range D).mapM fun k => rd (mesh p).nodes (D * i + k)
        return key c) = .ok (names D mesh (fun p a => key (node D (mesh p) a)) p) := by
  rw [Res.assert_true dbg (Nat.mod_eq_zero_of_dvd (hT.dvd p hp)), Res.bind_eq, Res.bind_ok]
  have : ∀ l : List Nat, (∀ i ∈ l, i < (mesh p).nodes.length / D) → (l.mapM fun i => do
      let c ← (List.range D).mapM fun k => rd (mesh p).nodes (D * i + k)
      return key c) = .ok (l.map fun a => key (node D (mesh p) a)) := by
    intro l
    induction l with
    | nil => intro _; rfl
    | cons i l ih =>
      intro h
      rw [List.mapM_cons, ih fun i hi => h i (by simp [hi]), mapM_rd (h i (by simp))]
      rfl
  exact this _ (by simp)

theorem check_spec (dbg : Bool) {txt : Err κ → List Char} (ht : ∀ e, txt e ≠ []) (ht' : txt .who ≠ "ok".toList) {srt : List κ → List κ} (hsrt : SortsList srt)
    {D : Nat} (hn : 0 < n) {key : List R → κ} {mesh : Nat → Tess R} (hT : Tables D n mesh fun p a => key (node D (mesh p) a)) :
    (∃ t, Ends n (fun p => check dbg txt srt D n key p (mesh p)) (fun _ => t) ∧ (t = "ok".toList ↔ FitTogether D n mesh fun p a => key (node D (mesh p) a))) ∨
    (Fails n (fun p => check dbg txt srt D n key p (mesh p)) ∧ Overrun n mesh) := by
  have : Inhabited κ := ⟨key []⟩
  have hnd : ∀ p, p < n → (mesh p).neighborDomains.Nodup := fun p hp => (hT.sorted p hp).imp fun h => ne_of_lt h
  let gid := fun p a => key (node D (mesh p) a)
  have hr : Readable n (names D mesh gid) (fun p => (mesh p).neighborDomains) (fun p => (mesh p).sharedNodes) :=
    ⟨fun p hp q hq => (hT.lt p hp q hq).1, hT.len, fun p hp l hl i hi => by simpa [names] using hT.nodes p hp l hl i hi⟩
  have hfit := fit_iff hT txt ht hsrt hr
  obtain ⟨r1, e1, hw1, hw2⟩ := whoLoop_spec (n := n) txt (ht _) (nd := fun p => (mesh p).neighborDomains)
    (fun p hp => (hT.sorted p hp).imp fun h => le_of_lt h) (List.range n) (fun _ => []) (by simp) (by simp)
  obtain ⟨t2, e2, h2, p2, hp2, h2'⟩ := reduceMax_spec (κ := κ) dbg hn r1
  have hwho : t2 = [] ↔ ∀ p, p < n → ∀ s, s < n → (mesh s).neighborDomains ≠ [] → (p ∈ (mesh s).neighborDomains ↔ s ∈ (mesh p).neighborDomains) := by
    rw [h2]
    refine forall₂_congr fun p hp => ?_
    rw [hw2 p hp]
    simp
  have hhash := fun p hp => hash_spec dbg hT (p := p) hp
  -- the parts after the first
  have rest : ∀ {P : (Nat → Coll (Msg κ) (List Char)) → Prop}, (∀ {ps qs : Nat → Coll (Msg κ) (List Char)}, P ps → (∀ p, p < n → ps p = qs p) → P qs) → t2 = [] →
      P (fun p => (commInfo dbg txt "Node".toList p n (names D mesh gid p) (mesh p).neighborDomains (mesh p).sharedNodes (List.range n) []).bind fun res =>
        (if res = [] then allFound dbg txt srt "Node".toList p n (names D mesh gid p) (mesh p).neighborDomains (mesh p).sharedNodes true (List.range n) res
          else .done res).bind fun res => .done (if res = [] then "ok".toList else res)) →
      P (fun p => .local (do
        Res.assert dbg ((mesh p).nodes.length % D = 0)
        (List.range ((mesh p).nodes.length / D)).mapM fun i => do
          let c ← (List.range D).mapM fun k => rd (mesh p).nodes (D * i + k)
          return key c) fun hashes =>
        (if t2 = [] then commInfo dbg txt "Node".toList p n hashes (mesh p).neighborDomains (mesh p).sharedNodes (List.range n) t2 else .done t2).bind fun res =>
        (if res = [] then allFound dbg txt srt "Node".toList p n hashes (mesh p).neighborDomains (mesh p).sharedNodes true (List.range n) res
          else .done res).bind fun res => .done (if res = [] then "ok".toList else res)) := by
    intro P hP h0 h
    refine hP h fun p hp => ?_
    rw [hhash p hp, h0]
    rfl
  have hnode : ∀ t', "Node".toList ++ " : ".toList ++ t' ≠ "ok".toList := by
    intro t' h
    have := congrArg List.length h
    simp at this
  by_cases h0 : t2 = []
  · rcases commInfo_spec dbg txt ht "Node".toList hn hr hnd (List.range n) (by simp) with ⟨t3, e3, h3, h3'⟩ | ⟨hf, s, hs, k, hk, hb1, j, hb2, hb3⟩
    · by_cases h30 : t3 = []
      · obtain ⟨t4, e4, h4, h4'⟩ := allFound_spec dbg txt srt "Node".toList true hn hr (List.range n) (by simp)
        left
        refine ⟨if t4 = [] then "ok".toList else t4, e1.bind (e2.bind (rest (P := fun ps => Ends n ps _) (fun h1 h2 => h1.congr h2 fun _ _ => rfl) h0
          (e3.bind ((e4.congr (fun p _ => ?_) (fun _ _ => rfl)).bind (.done fun _ _ => rfl))))), ?_⟩
        · rw [if_pos h30, h30]
        · rw [← hfit, ← hwho]
          have a3 := h3'.1 h30
          simp only [List.mem_range] at a3 h4'
          constructor
          · intro h
            refine ⟨h0, a3, ?_⟩
            rcases h4 with h4 | ⟨t', rfl⟩
            · exact h4'.1 h4
            · rw [if_neg (by simp)] at h
              exact absurd h (hnode t')
          · rintro ⟨-, -, h⟩
            rw [if_pos (h4'.2 h)]
      · left
        obtain ⟨t', rfl⟩ := h3.resolve_left h30
        refine ⟨"Node".toList ++ " : ".toList ++ t', e1.bind (e2.bind (rest (P := fun ps => Ends n ps _) (fun h1 h2 => h1.congr h2 fun _ _ => rfl) h0
          (e3.bind (.done fun p _ => ?_)))), ?_⟩
        · rw [if_neg h30]
          simp only [Coll.bind]
          rw [if_neg h30]
        · rw [← hfit]
          refine ⟨fun h => absurd h (hnode t'), fun h => absurd (h3'.2 fun s hs => h.2.1 s (List.mem_range.1 hs)) h30⟩
    · right
      refine ⟨e1.bindFails (e2.bindFails (rest (P := fun ps => Fails n ps) (fun h1 h2 => h1.congr h2) h0 (hf.bind _))), ?_⟩
      have hk' : (mesh s).neighborDomains[k]? = some (mesh s).neighborDomains[k] := List.getElem?_eq_getElem hk
      have hat : nbrAt (fun p => (mesh p).neighborDomains) s k = (mesh s).neighborDomains[k] := by
        simp [nbrAt, hk]
      rw [hat] at hb1 hb2 hb3
      exact ⟨s, k, _, j, List.mem_range.1 hs, hk', hb2, hb1, hb3⟩
  · left
    refine ⟨t2, e1.bind (e2.bind (.done fun p hp => ?_)), ?_⟩
    · rw [hhash p hp]
      simp only [Coll.local, if_neg h0, Coll.bind]
    · rw [← hfit, ← hwho]
      refine ⟨fun h => ?_, fun h => absurd h.1 h0⟩
      rcases hw1 p2 hp2 with h' | h'
      · rw [h'] at h2'; exact absurd h2' h0
      · rw [h'] at h2'; rw [h2'] at h; exact absurd h ht'

/-- C50, the check is right: if each process's own data are in order, then the check ends with "ok" on all processes exactly if the data of all processes fit
together. In particular the collective operations match, whatever the data. -/
theorem C50_ok_iff (dbg : Bool) {txt : Err κ → List Char} (ht : ∀ e, txt e ≠ []) (ht' : txt .who ≠ "ok".toList) {srt : List κ → List κ} (hsrt : SortsList srt)
    {D : Nat} (hn : 0 < n) {key : List R → κ} {mesh : Nat → Tess R} (hT : Tables D n mesh fun p a => key (node D (mesh p) a)) :
    Ends n (fun p => check dbg txt srt D n key p (mesh p)) (fun _ => "ok".toList) ↔ FitTogether D n mesh fun p a => key (node D (mesh p) a) := by
  rcases check_spec dbg ht ht' hsrt hn hT with ⟨t, e, h⟩ | ⟨hf, p, k, q, j, hp, h1, h2, h3, h4⟩
  · rw [← h]
    constructor
    · intro e'
      exact e.unique hn e' 0 hn
    · rintro rfl; exact e
  · constructor
    · intro e; exact absurd hf e.not_fails
    · intro hF
      have := congrArg List.length (hF.1.agree p hp k q j h1 h2)
      simp only [List.length_map] at this
      exact absurd this h4

/-- C50, all processes return the same text, unless the text to be returned is undefined (see `C50_report_fails`). -/
theorem C50_same_partial (dbg : Bool) {txt : Err κ → List Char} (ht : ∀ e, txt e ≠ []) (ht' : txt .who ≠ "ok".toList) {srt : List κ → List κ} (hsrt : SortsList srt)
    {D : Nat} (hn : 0 < n) {key : List R → κ} {mesh : Nat → Tess R} (hT : Tables D n mesh fun p a => key (node D (mesh p) a)) (ho : ¬ Overrun n mesh) :
    ∃ t, Ends n (fun p => check dbg txt srt D n key p (mesh p)) (fun _ => t) := by
  rcases check_spec dbg ht ht' hsrt hn hT with ⟨t, e, -⟩ | ⟨-, h⟩
  · exact ⟨t, e⟩
  · exact absurd h ho

/-- C50 fails: if the neighbours are agreed upon and the lists of all processes before `p` match, but `p` and its `k`-th neighbour `q` list different numbers of nodes
for each other and `q` has at most `k` neighbours, then composing the report reads past the end of the table of `q`. -/
theorem C50_report_fails (dbg : Bool) {txt : Err κ → List Char} (ht : ∀ e, txt e ≠ []) {srt : List κ → List κ}
    {D : Nat} {key : List R → κ} {mesh : Nat → Tess R} (hT : Tables D n mesh fun p a => key (node D (mesh p) a))
    (hsym : ∀ p, p < n → ∀ q ∈ (mesh p).neighborDomains, p ∈ (mesh q).neighborDomains) {p k q j : Nat} (hp : p < n)
    (hbefore : ∀ r, r < p → ∀ (i s j : Nat), (mesh r).neighborDomains[i]? = some s → (mesh s).neighborDomains[j]? = some r →
      ((mesh r).sharedNodes.getD i []).map (fun a => key (node D (mesh r) a)) = ((mesh s).sharedNodes.getD j []).map fun a => key (node D (mesh s) a))
    (hk : (mesh p).neighborDomains[k]? = some q) (hj : (mesh q).neighborDomains[j]? = some p) (hq : (mesh q).neighborDomains.length ≤ k)
    (hne : ((mesh p).sharedNodes.getD k []).length ≠ ((mesh q).sharedNodes.getD j []).length) :
    Fails n (fun p => check dbg txt srt D n key p (mesh p)) := by
  have : Inhabited κ := ⟨key []⟩
  have hn : 0 < n := by omega
  have hnd : ∀ p, p < n → (mesh p).neighborDomains.Nodup := fun p hp => (hT.sorted p hp).imp fun h => ne_of_lt h
  have hr : Readable n (names D mesh fun p a => key (node D (mesh p) a)) (fun p => (mesh p).neighborDomains) (fun p => (mesh p).sharedNodes) :=
    ⟨fun p hp q hq => (hT.lt p hp q hq).1, hT.len, fun p hp l hl i hi => by simpa [names] using hT.nodes p hp l hl i hi⟩
  obtain ⟨r1, e1, -, hw2⟩ := whoLoop_spec (n := n) txt (ht _) (nd := fun p => (mesh p).neighborDomains)
    (fun p hp => (hT.sorted p hp).imp fun h => le_of_lt h) (List.range n) (fun _ => []) (by simp) (by simp)
  obtain ⟨t2, e2, h2, -⟩ := reduceMax_spec (κ := κ) dbg hn r1
  have h20 : t2 = [] := by
    rw [h2]
    intro a ha
    rw [hw2 a ha]
    refine ⟨rfl, fun s hs _ => ⟨fun h => hsym s (List.mem_range.1 hs) a h, fun h => hsym a ha s h⟩⟩
  have hat : ∀ p (k q : Nat), (mesh p).neighborDomains[k]? = some q → nbrAt (fun p => (mesh p).neighborDomains) p k = q := by
    intro p k q hk
    simp [nbrAt, List.getD_eq_getElem?_getD, hk]
  have hrange : List.range n = List.range p ++ p :: (List.range' (p + 1) (n - p - 1)) := by
    rw [List.range_eq_range', List.range_eq_range']
    have h1 := List.range'_append (s := 0) (m := p) (n := n - p) (step := 1)
    rw [show p + (n - p) = n by omega] at h1
    rw [← h1, show n - p = (n - p - 1) + 1 by omega, List.range'_succ]
    simp
  refine e1.bindFails (e2.bindFails (Fails.congr (ps := fun p => (commInfo dbg txt "Node".toList p n (names D mesh (fun p a => key (node D (mesh p) a)) p)
    (mesh p).neighborDomains (mesh p).sharedNodes (List.range n) []).bind fun res =>
        (if res = [] then allFound dbg txt srt "Node".toList p n (names D mesh (fun p a => key (node D (mesh p) a)) p) (mesh p).neighborDomains (mesh p).sharedNodes true
          (List.range n) res else .done res).bind fun res => .done (if res = [] then "ok".toList else res)) (Fails.bind _ ?_) fun p hp => ?_))
  · rw [hrange]
    refine commInfo_fails dbg txt ht "Node".toList hn hr hnd hp (List.getElem?_eq_some_iff.1 hk).1 ⟨by rw [hat p k q hk]; exact hq, j, by rw [hat p k q hk]; exact hj, by
      rw [hat p k q hk]; exact hne⟩ _ (List.range p) (fun r hr => by have := List.mem_range.1 hr; omega) ?_
    intro r hrp i hi
    have hrp := List.mem_range.1 hrp
    have hi' : (mesh r).neighborDomains[i]? = some (mesh r).neighborDomains[i] := List.getElem?_eq_getElem hi
    have hsm := List.getElem_mem hi
    generalize (mesh r).neighborDomains[i] = s at hi' hsm
    have hrn : r < n := by omega
    have hsn := (hT.lt r hrn s hsm).1
    obtain ⟨j', hj', he⟩ := List.getElem_of_mem (hsym r hrn s hsm)
    have hj2 : (mesh s).neighborDomains[j']? = some r := by rw [List.getElem?_eq_getElem hj', he]
    have hlist : ∀ p, p < n → ∀ (k q : Nat), (mesh p).neighborDomains[k]? = some q → (mesh p).sharedNodes.getD k [] ∈ (mesh p).sharedNodes := by
      intro p hp k q hk
      exact getD_mem_list (by rw [hT.len p hp]; exact (List.getElem?_eq_some_iff.1 hk).1) []
    refine ⟨j', by rw [hat r i s hi']; exact hj2, ?_⟩
    rw [hat r i s hi', hs_names (hT.nodes r hrn _ (hlist r hrn i s hi')), hs_names (hT.nodes s hsn _ (hlist s hsn j' r hj2))]
    exact hbefore r hrp i s j' hi' hj2
  · rw [hash_spec dbg hT hp, h20]
    rfl

/-- The meshes that the distributed tessellator derives (C66) pass the check, so the check at the end of `tessellate` (in debug builds) does not stop the program. -/
theorem C50_applies_to_C66 (dbg : Bool) {D : Nat} {g2d : Nat → List Nat} {nloc : Nat → Nat} {halo mesh : Nat → Tess R} {key : List R → κ} {fk : List (List R) → κ}
    (hn : 0 < n) (hD : 0 < D) (hH : ∀ p, p < n → Halo D p (nloc p) (g2d p) (halo p)) (hA : HalosAgree D n g2d halo key)
    (hsm : ∀ p, p < n → D * numNodes D (halo p) < 2 ^ 31) (hL : ∀ p, p < n → LocalPart D p (g2d p) key fk (halo p) (mesh p))
    (hsort : ∀ p, p < n → (halo p).neighborDomains.Pairwise (· < ·)) {txt : Err κ → List Char} (ht : ∀ e, txt e ≠ []) (ht' : txt .who ≠ "ok".toList)
    {srt : List κ → List κ} (hsrt : SortsList srt) :
    Ends n (fun p => check dbg txt srt D n key p (mesh p)) (fun _ => "ok".toList) := by
  have hS := sharing_of_parts hH hA hsm hL hD
  have hc := fun p hp => (hH p hp).consistent
  have hT : Tables D n mesh fun p a => key (node D (mesh p) a) := by
    refine ⟨hD, ?_, hS.lt, ?_, hS.len, hS.nodes, hS.inj, hS.small⟩
    · intro p hp
      have := ((hL p hp).part.consistent (hc p hp)).nodes_dvd
      exact this
    · intro p hp
      rw [(hL p hp).nbrs]
      exact (hsort p hp).filter _
  rw [C50_ok_iff dbg ht ht' hsrt hn hT]
  refine ⟨hS, ?_⟩
  intro p hp l hl
  obtain ⟨i, hi, rfl⟩ := List.getElem_of_mem hl
  have hi2 : i < (mesh p).neighborDomains.length := by rw [← hS.len p hp]; exact hi
  have h1 := ((hL p hp).nodes i _ (List.getElem?_eq_getElem hi2)).1
  have e : (mesh p).sharedNodes.getD i [] = (mesh p).sharedNodes[i] := by simp [hi]
  rw [e] at h1
  have h2 : (mesh p).neighborDomains[i] ∈ (mesh p).neighborDomains := List.getElem_mem hi2
  constructor
  · intro h0
    rw [h0] at h1
    generalize (mesh p).neighborDomains[i] = q at h1 h2
    rw [(hL p hp).nbrs, List.mem_filter, decide_eq_true_eq] at h2
    exact h2.2 (List.nil_perm.1 h1)
  · exact List.Nodup.of_map _ (h1.nodup_iff.2 (List.nodup_range.filter _))
end

/-! ### Cases that meet the hypotheses -/

/-- Some text for each disagreement. -/
def exTxt : Err Int → List Char := fun _ => ['x']

theorem exTxt_ne : ∀ e, exTxt e ≠ [] := fun _ => List.cons_ne_nil _ _

theorem insertionSort_sortsList [LinearOrder κ] : SortsList fun l : List κ => l.insertionSort (· ≤ ·) :=
  fun _ => ⟨List.perm_insertionSort _ _, List.pairwise_insertionSort _ _⟩

/-- Three processes with one common node; `bad` changes what process 2 lists for process 0. -/
def exTab (bad : List Nat) (p : Nat) : Tess Int :=
  { nodes := [p, 0, 10, 10], neighborDomains := [0, 1, 2].filter (· ≠ p), sharedNodes := if p = 2 then [bad, [1]] else [[1], [1]] }

theorem exTab_tables (bad : List Nat) (hb : ∀ i ∈ bad, i < 2) (hl : bad.length < 100) : Tables 2 3 (exTab bad) fun p a => exKey (node 2 (exTab bad p) a) := by
  have hnn : ∀ p, numNodes 2 (exTab bad p) = 2 := fun p => by simp [numNodes, exTab]
  have hs : ∀ p, p < 3 → ∀ l ∈ (exTab bad p).sharedNodes, l = [1] ∨ l = bad := by
    intro p hp l hl
    simp only [exTab] at hl
    split at hl <;> simp only [List.mem_cons, List.not_mem_nil, or_false] at hl <;> tauto
  refine ⟨by decide, fun p hp => by simp [exTab], ?_, ?_, ?_, ?_, ?_, ?_⟩
  · intro p hp q hq
    simp only [exTab, List.mem_filter, List.mem_cons, List.not_mem_nil, or_false, decide_eq_true_eq] at hq
    exact ⟨by omega, hq.2⟩
  · intro p hp
    have : ∀ p, p < 3 → ([0, 1, 2].filter (· ≠ p)).Pairwise (· < ·) := by decide
    exact this p hp
  · intro p hp
    have : ∀ p, p < 3 → ([0, 1, 2].filter (· ≠ p)).length = 2 := by decide
    have h2 := this p hp
    simp only [exTab]
    rw [h2]
    split <;> rfl
  · intro p hp l hl i hi
    rw [hnn]
    rcases hs p hp l hl with rfl | rfl
    · simp at hi; omega
    · exact hb i hi
  · intro p hp a b ha hb' h
    rw [hnn] at ha hb'
    have : ∀ p : Nat, p < 3 → exKey [(p : Int), 0] ≠ exKey [10, 10] := by decide
    have e0 : node 2 (exTab bad p) 0 = [(p : Int), 0] := rfl
    have e1 : node 2 (exTab bad p) 1 = [10, 10] := rfl
    have ha2 : a = 0 ∨ a = 1 := by omega
    have hb2 : b = 0 ∨ b = 1 := by omega
    rcases ha2 with rfl | rfl <;> rcases hb2 with rfl | rfl
    · rfl
    · rw [e0, e1] at h; exact absurd h (this p hp)
    · rw [e0, e1] at h; exact absurd h.symm (this p hp)
    · rfl
  · intro p hp l hl'
    rcases hs p hp l hl' with rfl | rfl
    · decide
    · omega

/-- The three processes agree. -/
example : Ends 3 (fun p => check true exTxt (fun l => l.insertionSort (· ≤ ·)) 2 3 exKey p (exTab [1] p)) (fun _ => "ok".toList) := by
  rw [C50_ok_iff true exTxt_ne (by decide) insertionSort_sortsList (by decide) (exTab_tables [1] (by decide) (by decide))]
  have hnn : ∀ p, numNodes 2 (exTab [1] p) = 2 := fun p => by simp [numNodes, exTab]
  have hT := exTab_tables [1] (by decide) (by decide)
  refine ⟨⟨hT.dim, hT.lt, fun p hp => (hT.sorted p hp).imp fun h => ne_of_lt h, by decide, hT.len, hT.nodes, hT.inj, ?_, ?_, hT.small⟩, by decide⟩
  · intro p hp i q j hi hj
    have l1 : ∀ k i, (exTab [1] k).sharedNodes.getD i [] = if i < 2 then [1] else [] := by
      intro k i
      rcases i with _ | _ | i <;> simp [exTab]
    have l2 : ∀ p, p < 3 → (exTab [1] p).neighborDomains.length = 2 := by decide
    have hi' := (List.getElem?_eq_some_iff.1 hi).1
    have hq := (hT.lt p hp q (List.mem_of_getElem? hi)).1
    have hj' := (List.getElem?_eq_some_iff.1 hj).1
    rw [l2 p hp] at hi'
    rw [l2 q hq] at hj'
    rw [l1, l1, if_pos hi', if_pos hj']
    rfl
  · intro p q hp hq hpq a b ha hb h
    rw [hnn] at ha hb
    have h0 : ∀ p, p < 3 → ∀ q, q < 3 → p ≠ q →
        (exKey (node 2 (exTab [1] p) 0) ≠ exKey (node 2 (exTab [1] q) 0) ∧ exKey (node 2 (exTab [1] p) 0) ≠ exKey (node 2 (exTab [1] q) 1)) := by decide +kernel
    have : ∀ p, p < 3 → ∀ q, q < 3 → p ≠ q → (exTab [1] p).neighborDomains[0]? = some q ∨ (exTab [1] p).neighborDomains[1]? = some q := by decide
    have ha1 : a = 1 := by
      by_contra hne
      have ha0 : a = 0 := by omega
      subst ha0
      have hb2 : b = 0 ∨ b = 1 := by omega
      rcases hb2 with rfl | rfl
      · exact (h0 p hp q hq hpq).1 h
      · exact (h0 p hp q hq hpq).2 h
    subst ha1
    rcases this p hp q hq hpq with h1 | h1
    · exact ⟨0, h1, by simp [exTab]⟩
    · exact ⟨1, h1, by simp [exTab]⟩

/-- Process 2 lists the wrong node for process 0: the check does not end with "ok", but it ends with the same text on all processes. -/
example : (∃ t, Ends 3 (fun p => check true exTxt (fun l => l.insertionSort (· ≤ ·)) 2 3 exKey p (exTab [0] p)) (fun _ => t)) ∧
    ¬ Ends 3 (fun p => check true exTxt (fun l => l.insertionSort (· ≤ ·)) 2 3 exKey p (exTab [0] p)) (fun _ => "ok".toList) := by
  have hT := exTab_tables [0] (by decide) (by decide)
  refine ⟨C50_same_partial true exTxt_ne (by decide) insertionSort_sortsList (by decide) hT ?_, ?_⟩
  · rintro ⟨p, k, q, j, hp, h1, h2, h3, -⟩
    have l2 : ∀ p, p < 3 → (exTab [0] p).neighborDomains.length = 2 := by decide
    have hk := (List.getElem?_eq_some_iff.1 h1).1
    rw [l2 p hp] at hk
    rw [l2 q (hT.lt p hp q (List.mem_of_getElem? h1)).1] at h3
    omega
  · rw [C50_ok_iff true exTxt_ne (by decide) insertionSort_sortsList (by decide) hT]
    rintro ⟨hS, -⟩
    have := hS.agree 0 (by decide) 1 2 0 (by decide) (by decide)
    revert this
    decide +kernel

/-- Process 0 has neighbours 1 and 2, which have process 0 only; processes 0 and 2 list different numbers of nodes for each other. -/
def exOver (p : Nat) : Tess Int :=
  if p = 0 then { nodes := [0, 0, 10, 10], neighborDomains := [1, 2], sharedNodes := [[1], [1]] }
  else { nodes := [p, 0, 10, 10], neighborDomains := [0], sharedNodes := [if p = 1 then [1] else []] }

example : Fails 3 (fun p => check true exTxt (fun l => l.insertionSort (· ≤ ·)) 2 3 exKey p (exOver p)) := by
  have hnn : ∀ p, p < 3 → numNodes 2 (exOver p) = 2 := by decide
  refine C50_report_fails true exTxt_ne ⟨by decide, by decide, by decide, by decide, by decide, by decide, ?_, by decide⟩ (by decide) (p := 0) (k := 1) (q := 2) (j := 0) (by decide)
    (fun r hr => absurd hr (by omega)) (by decide) (by decide) (by decide) (by decide)
  intro p hp a b ha hb h
  rw [hnn p hp] at ha hb
  have : ∀ p, p < 3 → ∀ a, a < 2 → ∀ b, b < 2 → exKey (node 2 (exOver p) a) = exKey (node 2 (exOver p) b) → a = b := by decide +kernel
  exact this p hp a ha b hb h

/-- The two squares of C66 pass the check. -/
example (mesh : Nat → Tess Int) (hL : ∀ p, p < 2 → LocalPart 2 p (exOwn p) exKey exFk (exHalo p) (mesh p)) :
    Ends 2 (fun p => check true exTxt (fun l => l.insertionSort (· ≤ ·)) 2 2 exKey p (mesh p)) (fun _ => "ok".toList) :=
  C50_applies_to_C66 true (by decide) (by decide) exHalo_halo exHalo_agree (by decide) hL (by decide) exTxt_ne (by decide) insertionSort_sortsList
end Verif.Check
