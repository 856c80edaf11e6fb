import Verif.Spec.SiloParallel
import Verif.Proofs.Box
import Mathlib.Tactic.Linarith
import Mathlib.Data.Finset.Card
import Mathlib.Data.Fintype.EquivFin
/-
C81: the master file of a parallel Silo dump leads to the mesh of every process.
-/
namespace Verif
namespace Silo

/-- What is on disk when the writer succeeds. -/
theorem writeAll_ok {D : Type} (dbg : Bool) (j : Job) (g : Nat → Nat × Nat) (data : Nat → D) (hf : 1 ≤ j.files) (hf' : j.files ≤ j.nproc) :
    writeAll dbg j g data = .ok
      { masterDir := j.masterDir
        refs := (List.range j.files.toNat).flatMap fun i => (List.range (j.nproc / j.files.toNat)).map fun c => { group := i, file := j.fileName, domain := c }
        files := fun dir i name =>
          if dir = j.dataDir ∧ name = j.fileName ∧ i < j.files.toNat then passBaton 0 ((members j.nproc g i).map data) [] else [] } := by
  rw [writeAll, Res.assert_true dbg hf', Res.ok_bind, if_neg (by omega)]
  rfl

theorem passBaton_last {D : Type} : ∀ (ds : List D) (c : Nat) (d : D) (f : GroupFile D), passBaton c (ds ++ [d]) f = [(c + ds.length, d)]
  | [], 0, _, _ => rfl
  | [], _ + 1, _, _ => rfl
  | x :: ds, 0, d, f => by
    rw [List.cons_append, passBaton, passBaton_last ds, List.length_cons]
    congr 2; omega
  | x :: ds, c + 1, d, f => by
    rw [List.cons_append, passBaton, passBaton_last ds, List.length_cons]
    congr 2; omega

theorem members_mem {nproc : Nat} {g : Nat → Nat × Nat} {i p : Nat} (h : p ∈ members nproc g i) : p < nproc ∧ (g p).1 = i := by
  rw [members, List.mem_filterMap] at h
  obtain ⟨c, -, hc⟩ := h
  have h1 := List.mem_of_find?_eq_some hc
  have h2 := List.find?_some hc
  simp only [decide_eq_true_eq] at h2
  exact ⟨List.mem_range.1 h1, by rw [h2]⟩

/-- Whatever is found on disk was written by the last process of a group. -/
theorem follow_last {D : Type} {dbg : Bool} {j : Job} {g : Nat → Nat × Nat} {data : Nat → D} {w : Disk D} (hw : writeAll dbg j g data = .ok w) {r : Ref} {d : D}
    (h : w.follow r = some d) : w.masterDir = j.dataDir ∧ r.group < j.files.toNat ∧ ∃ p, (members j.nproc g r.group).getLast? = some p ∧ d = data p := by
  rw [writeAll] at hw
  obtain ⟨-, -, hw⟩ := Res.bind_eq_ok.1 hw
  split at hw
  · cases hw
  · cases hw
    simp only [Disk.follow] at h ⊢
    split at h
    · next hc =>
      refine ⟨hc.1, hc.2.2, ?_⟩
      rcases List.eq_nil_or_concat (members j.nproc g r.group) with hm | ⟨l, p, hm⟩
      · rw [hm] at h
        simp [passBaton] at h
      · rw [List.concat_eq_append] at hm
        rw [hm, List.map_append, List.map_cons, List.map_nil, passBaton_last] at h
        refine ⟨p, by rw [hm]; simp, ?_⟩
        simp only [List.lookup] at h
        split at h
        · exact (Option.some.inj h).symm
        · cases h
    · simp at h

/-- With one file per process every group is a single process. -/
theorem single {nproc : Nat} {g : Nat → Nat × Nat} (hg : IsGrouping nproc nproc g) {p : Nat} (hp : p < nproc) : (g p).2 = 0 := by
  have h0 : ∀ i : Fin nproc, ∃ q : Fin nproc, g q = (i.1, 0) := fun i => by
    obtain ⟨q, hq, e⟩ := hg.full i i.2 0 (by rw [Nat.div_self (by omega)]; omega)
    exact ⟨⟨q, hq⟩, e⟩
  choose q hq using h0
  have hinj : Function.Injective q := fun a b hab => by
    have := (hq a).symm.trans (hab ▸ hq b)
    simp only [Prod.mk.injEq, and_true] at this
    exact Fin.ext this
  obtain ⟨i, hi⟩ := (Finite.injective_iff_surjective.1 hinj) ⟨p, hp⟩
  have := hq i
  rw [hi] at this
  rw [this]

theorem members_single {nproc : Nat} {g : Nat → Nat × Nat} (hg : IsGrouping nproc nproc g) {p : Nat} (hp : p < nproc) : members nproc g (g p).1 = [p] := by
  obtain ⟨n, rfl⟩ : ∃ n, nproc = n + 1 := ⟨nproc - 1, by omega⟩
  have h0 : (List.range (n + 1)).find? (fun q => g q = ((g p).1, 0)) = some p := by
    have hgp : g p = ((g p).1, 0) := by rw [← single hg hp]
    rcases hf : (List.range (n + 1)).find? (fun q => g q = ((g p).1, 0)) with _ | q
    · rw [List.find?_eq_none] at hf
      exact absurd (by simpa using hgp) (hf p (List.mem_range.2 hp))
    · have h1 := List.mem_range.1 (List.mem_of_find?_eq_some hf)
      have h2 := List.find?_some hf
      simp only [decide_eq_true_eq] at h2
      rw [hg.inj q h1 p hp (h2.trans hgp.symm)]
  have hs : ∀ c, (List.range (n + 1)).find? (fun q => g q = ((g p).1, c + 1)) = none := by
    intro c
    rw [List.find?_eq_none]
    intro q hq
    have := single hg (List.mem_range.1 hq)
    simp only [decide_eq_true_eq]
    intro h
    rw [h] at this
    simp at this
  rw [members]
  conv_lhs => arg 2; rw [List.range_succ_eq_map]
  rw [List.filterMap_cons, h0]
  simp only
  congr 1
  rw [List.filterMap_map, List.filterMap_eq_nil_iff]
  intro c _
  exact hs c

theorem files_eq {j : Job} : j.files = j.nproc ↔ j.numFiles = -1 ∨ j.numFiles = j.nproc := by
  unfold Job.files
  split_ifs <;> omega

/-- C81. With one file per process (the default), and the master file in the directory of the data (always so in 2D), the writer succeeds, and the names in the
master file lead exactly to the data of the processes. Missing: any other number of files (`C81_iff`). -/
theorem C81_partial {D : Type} (dbg : Bool) (j : Job) {g : Nat → Nat × Nat} (data : Nat → D) (hn : 0 < j.nproc)
    (hnum : j.numFiles = -1 ∨ j.numFiles = j.nproc) (hd : j.masterDir = j.dataDir) (hg : IsGrouping j.nproc j.nproc g) :
    ∃ w, writeAll dbg j g data = .ok w ∧ w.refs.length = j.nproc ∧ Complete j.nproc data w ∧ Sound j.nproc data w := by
  have hf := files_eq.2 hnum
  refine ⟨_, writeAll_ok dbg j g data (by omega) hf.le, ?_⟩
  · have hnf : j.files.toNat = j.nproc := by omega
    simp only [hnf, Nat.div_self hn]
    have key : ∀ p < j.nproc, (if j.masterDir = j.dataDir ∧ j.fileName = j.fileName ∧ (g p).1 < j.nproc then
        passBaton 0 ((members j.nproc g (g p).1).map data) [] else []).lookup 0 = some (data p) := by
      intro p hp
      rw [if_pos ⟨hd, rfl, hg.group p hp⟩, members_single hg hp]
      rfl
    refine ⟨by simp, ?_, ?_⟩
    · intro p hp
      refine ⟨⟨(g p).1, j.fileName, 0⟩, ?_, key p hp⟩
      simp [hg.group p hp]
    · intro r hr
      simp only [List.mem_flatMap, List.mem_range, List.mem_map] at hr
      obtain ⟨i, hi, c, hc, rfl⟩ := hr
      obtain rfl : c = 0 := by omega
      obtain ⟨p, hp, e⟩ := hg.full i hi 0 (by rw [Nat.div_self hn]; omega)
      refine ⟨p, hp, ?_⟩
      have := key p hp
      rw [e] at this
      exact this

/-- The exact condition. For any division into groups, and data that tell the processes apart, the mesh of every process can be found if and only if there are as
many files as processes and the master file is in the directory of the data. -/
theorem C81_iff {D : Type} (dbg : Bool) (j : Job) {g : Nat → Nat × Nat} {data : Nat → D} (hn : 0 < j.nproc) (hf : 1 ≤ j.files) (hf' : j.files ≤ j.nproc)
    (hg : IsGrouping j.nproc j.files.toNat g) (hdata : ∀ p < j.nproc, ∀ q < j.nproc, data p = data q → p = q) :
    ∃ w, writeAll dbg j g data = .ok w ∧ (Complete j.nproc data w ↔ (j.numFiles = -1 ∨ j.numFiles = j.nproc) ∧ j.masterDir = j.dataDir) := by
  obtain ⟨w, hw⟩ : ∃ w, writeAll dbg j g data = .ok w := ⟨_, writeAll_ok dbg j g data hf hf'⟩
  refine ⟨w, hw, ?_, ?_⟩
  · intro hc
    have hm : w.masterDir = j.masterDir := by
      rw [writeAll] at hw
      obtain ⟨-, -, hw⟩ := Res.bind_eq_ok.1 hw
      split at hw <;> cases hw
      rfl
    have hr : ∀ p : Fin j.nproc, ∃ i : Fin j.files.toNat, (members j.nproc g i).getLast? = some p.1 := by
      intro p
      obtain ⟨r, -, hr⟩ := hc p p.2
      obtain ⟨-, h1, q, h2, h3⟩ := follow_last hw hr
      have hq : q < j.nproc := (members_mem (List.mem_of_getLast? h2)).1
      obtain rfl := hdata p p.2 q hq h3
      exact ⟨⟨r.group, h1⟩, h2⟩
    choose i hi using hr
    have hinj : Function.Injective i := fun a b hab => by
      have h1 := hi a
      rw [hab, hi b] at h1
      exact Fin.ext (Option.some.inj h1).symm
    have hcard := Fintype.card_le_of_injective i hinj
    rw [Fintype.card_fin, Fintype.card_fin] at hcard
    refine ⟨files_eq.1 (by omega), ?_⟩
    obtain ⟨r, -, hr⟩ := hc 0 hn
    rw [← hm]
    exact (follow_last hw hr).1
  · rintro ⟨h1, h2⟩
    have hg' : IsGrouping j.nproc j.nproc g := by
      have : j.files.toNat = j.nproc := by
        rw [files_eq.2 h1]
        omega
      rwa [this] at hg
    obtain ⟨w', hw', -, hc, -⟩ := C81_partial dbg j data hn h1 h2 hg'
    rw [hw] at hw'
    cases hw'
    exact hc

/-- With fewer files than processes the data of some process are on no file: the process that opens a file after another one empties it. -/
theorem C81_shared_file_fails {D : Type} (dbg : Bool) (j : Job) {g : Nat → Nat × Nat} {data : Nat → D} (hf : 1 ≤ j.files) (hf' : j.files < j.nproc)
    (hdata : ∀ p < j.nproc, ∀ q < j.nproc, data p = data q → p = q) :
    ∃ w, writeAll dbg j g data = .ok w ∧ ∃ p < j.nproc, ∀ r, w.follow r ≠ some (data p) := by
  obtain ⟨w, hw⟩ : ∃ w, writeAll dbg j g data = .ok w := ⟨_, writeAll_ok dbg j g data hf hf'.le⟩
  refine ⟨w, hw, ?_⟩
  by_contra hcon
  push Not at hcon
  have hr : ∀ p : Fin j.nproc, ∃ i : Fin j.files.toNat, (members j.nproc g i).getLast? = some p.1 := by
    intro p
    obtain ⟨r, hr⟩ := hcon p p.2
    obtain ⟨-, h1, q, h2, h3⟩ := follow_last hw hr
    have hq : q < j.nproc := (members_mem (List.mem_of_getLast? h2)).1
    obtain rfl := hdata p p.2 q hq h3
    exact ⟨⟨r.group, h1⟩, h2⟩
  choose i hi using hr
  have hinj : Function.Injective i := fun a b hab => by
    have h1 := hi a
    rw [hab, hi b] at h1
    exact Fin.ext (Option.some.inj h1).symm
  have hcard := Fintype.card_le_of_injective i hinj
  rw [Fintype.card_fin, Fintype.card_fin] at hcard
  omega

/-- Even if the files held everything, the master file has too few names whenever the number of files does not divide the number of processes. -/
theorem C81_names_fails {D : Type} (dbg : Bool) (j : Job) {g : Nat → Nat × Nat} {data : Nat → D} (hf : 1 ≤ j.files) (hf' : j.files ≤ j.nproc)
    (hd : ¬ j.files.toNat ∣ j.nproc) : ∃ w, writeAll dbg j g data = .ok w ∧ w.refs.length < j.nproc := by
  refine ⟨_, writeAll_ok dbg j g data hf hf', ?_⟩
  · have h1 : j.nproc / j.files.toNat * j.files.toNat ≤ j.nproc := Nat.div_mul_le_self _ _
    have h2 : j.nproc / j.files.toNat * j.files.toNat ≠ j.nproc := fun h => hd ⟨_, by rw [Nat.mul_comm]; exact h.symm⟩
    have h3 : ((List.range j.files.toNat).flatMap fun i => (List.range (j.nproc / j.files.toNat)).map fun c => (⟨i, j.fileName, c⟩ : Ref)).length =
        j.nproc / j.files.toNat * j.files.toNat := by
      rw [List.length_flatMap]
      simp [Nat.mul_comm]
    simp only [h3]
    omega

/-- In 2D the master file is in the directory of the data. -/
theorem masterDir_2d {j : Job} (h : j.dim3 = false) : j.masterDir = j.dataDir := by
  rw [Job.masterDir, h]
  rfl

/-- In 3D with a directory given, the master file is not written there (unless the directory is called `prefix-nproc`), and no name in it leads anywhere. -/
theorem C81_directory_fails {D : Type} (dbg : Bool) (j : Job) {g : Nat → Nat × Nat} {data : Nat → D} (h3 : j.dim3 = true) (hd : j.directory ≠ [])
    (hne : j.directory ≠ strip j.filePrefix ++ ['-'] ++ digits j.nproc) {w : Disk D} (hw : writeAll dbg j g data = .ok w) (r : Ref) : w.follow r = none := by
  rcases h : w.follow r with _ | d
  · rfl
  · have hm : w.masterDir = j.masterDir := by
      rw [writeAll] at hw
      obtain ⟨-, -, hw⟩ := Res.bind_eq_ok.1 hw
      split at hw <;> cases hw
      rfl
    have := (follow_last hw h).1
    rw [hm, Job.masterDir, h3, if_pos rfl, Job.dataDir, if_neg hd] at this
    exact absurd this.symm hne

/-! ### Examples -/

/-- The grouping PMPIO makes: the first `nproc % n` groups have one process more than the others. -/
def pmpio (nproc n p : Nat) : Nat × Nat :=
  let s := nproc / n
  let x := nproc % n
  if p < x * (s + 1) then (p / (s + 1), p % (s + 1)) else (x + (p - x * (s + 1)) / s, (p - x * (s + 1)) % s)

theorem pmpio_grouping {nproc n : Nat} (hn : 0 < n) (h : n ≤ nproc) : IsGrouping nproc n (pmpio nproc n) := by
  have hs : 0 < nproc / n := Nat.div_pos h hn
  have hx : nproc % n < n := Nat.mod_lt _ hn
  have htot : n * (nproc / n) + nproc % n = nproc := Nat.div_add_mod nproc n
  generalize hsd : nproc / n = s at *
  generalize hxd : nproc % n = x at *
  -- where a pair comes from
  have hval : ∀ p, pmpio nproc n p = if p < x * (s + 1) then (p / (s + 1), p % (s + 1)) else (x + (p - x * (s + 1)) / s, (p - x * (s + 1)) % s) := by
    intro p
    simp only [pmpio, hsd, hxd]
  have hlow : ∀ i c, i < x → c < s + 1 → i * (s + 1) + c < nproc ∧ pmpio nproc n (i * (s + 1) + c) = (i, c) := by
    intro i c hi hc
    have h1 : (i + 1) * (s + 1) ≤ x * (s + 1) := Nat.mul_le_mul_right _ hi
    have h2 : x * (s + 1) ≤ nproc := by nlinarith
    have h3 : i * (s + 1) + c < x * (s + 1) := by nlinarith
    refine ⟨by omega, ?_⟩
    rw [hval, if_pos h3, Nat.mul_comm i, Nat.mul_add_div (by omega), Nat.div_eq_of_lt hc, Nat.mul_add_mod, Nat.mod_eq_of_lt hc, Nat.add_zero]
  have hhigh : ∀ i c, x ≤ i → i < n → c < s → x * (s + 1) + (i - x) * s + c < nproc ∧ pmpio nproc n (x * (s + 1) + (i - x) * s + c) = (i, c) := by
    intro i c hi hin hc
    obtain ⟨k, rfl⟩ := Nat.exists_eq_add_of_le hi
    have h1 : (x + k + 1) * s ≤ n * s := Nat.mul_le_mul_right _ hin
    have hk : x + k - x = k := by omega
    rw [hk]
    have h3 : ¬ x * (s + 1) + k * s + c < x * (s + 1) := by omega
    refine ⟨by nlinarith, ?_⟩
    have h4 : x * (s + 1) + k * s + c - x * (s + 1) = s * k + c := by
      rw [Nat.mul_comm k]
      omega
    rw [hval, if_neg h3, h4, Nat.mul_add_div hs, Nat.div_eq_of_lt hc, Nat.mul_add_mod, Nat.mod_eq_of_lt hc, Nat.add_zero]
  have hback : ∀ p < nproc, ∃ i c, pmpio nproc n p = (i, c) ∧ ((i < x ∧ c < s + 1 ∧ p = i * (s + 1) + c) ∨
      (x ≤ i ∧ i < n ∧ c < s ∧ p = x * (s + 1) + (i - x) * s + c)) := by
    intro p hp
    rw [hval]
    split
    · next hlt =>
      refine ⟨_, _, rfl, Or.inl ⟨?_, Nat.mod_lt _ (by omega), ?_⟩⟩
      · rw [Nat.div_lt_iff_lt_mul (by omega)]
        exact hlt
      · rw [Nat.mul_comm, Nat.div_add_mod]
    · next hge =>
      refine ⟨_, _, rfl, Or.inr ⟨Nat.le_add_right _ _, ?_, Nat.mod_lt _ hs, ?_⟩⟩
      · have : (p - x * (s + 1)) / s < n - x := by
          rw [Nat.div_lt_iff_lt_mul hs]
          obtain ⟨k, rfl⟩ := Nat.exists_eq_add_of_le hx.le
          have : x + k - x = k := by omega
          rw [this]
          have : x * (s + 1) + k * s = nproc := by nlinarith
          omega
        omega
      · have h1 : x + (p - x * (s + 1)) / s - x = (p - x * (s + 1)) / s := Nat.add_sub_cancel_left _ _
        rw [h1]
        have h2 := Nat.div_add_mod (p - x * (s + 1)) s
        rw [Nat.mul_comm ((p - x * (s + 1)) / s), Nat.add_assoc, h2]
        omega
  refine ⟨?_, ?_, ?_, ?_⟩
  · intro p hp
    obtain ⟨i, c, e, h | h⟩ := hback p hp
    · rw [e]; exact h.1.trans hx
    · rw [e]; exact h.2.1
  · intro p hp q hq hpq
    obtain ⟨i, c, e, h⟩ := hback p hp
    obtain ⟨i', c', e', h'⟩ := hback q hq
    rw [e, e', Prod.mk.injEq] at hpq
    obtain ⟨rfl, rfl⟩ := hpq
    rcases h with h | h <;> rcases h' with h' | h'
    · rw [h.2.2, h'.2.2]
    · exact absurd h.1 (by omega)
    · exact absurd h'.1 (by omega)
    · rw [h.2.2.2, h'.2.2.2]
  · intro p hp c hc
    obtain ⟨i, c', e, h | h⟩ := hback p hp
    · rw [e] at hc ⊢
      exact ⟨_, hlow i c h.1 (by simp only at hc; omega)⟩
    · rw [e] at hc ⊢
      exact ⟨_, hhigh i c h.1 h.2.1 (by simp only at hc; omega)⟩
  · intro i hi c hc
    rw [hsd] at hc
    rcases Nat.lt_or_ge i x with hix | hix
    · exact ⟨_, hlow i c hix (Nat.lt_succ_of_lt hc)⟩
    · exact ⟨_, hhigh i c hix hi hc⟩

/-- A 2D job of four processes with the default of one file each meets the hypotheses of `C81_partial`. -/
example : ∃ w, writeAll true { dim3 := false, nproc := 4, filePrefix := "mesh".toList } (pmpio 4 4) (fun p => p) = .ok w ∧ w.refs.length = 4 ∧
    Complete 4 (fun p => p) w ∧ Sound 4 (fun p => p) w :=
  C81_partial true { dim3 := false, nproc := 4, filePrefix := "mesh".toList } (fun p => p) (by decide) (.inl rfl) rfl (pmpio_grouping (by decide) (by decide))

/-- With two files the meshes of the processes 0 and 2 are lost. -/
example : ∃ w, writeAll true { dim3 := false, nproc := 4, numFiles := 2, filePrefix := "mesh".toList } (pmpio 4 2) (fun p => p) = .ok w ∧
    w.refs.map w.follow = [none, some 1, none, some 3] := ⟨_, rfl, by decide⟩

theorem strip_spec : ∀ (base rest : List Char), (∀ i < base.length, ¬ ".silo".toList <+: (base ++ rest).drop i) →
    (rest = [] ∨ ".silo".toList <+: rest) → strip (base ++ rest) = base
  | [], rest, _, h => by
    rcases h with rfl | ⟨r, rfl⟩
    · rfl
    · rfl
  | c :: cs, rest, hb, h => by
    have h0 := hb 0 (by simp)
    have ih := strip_spec cs rest (fun i hi => by simpa using hb (i + 1) (by simpa using hi)) h
    have h1 : ['.', 's', 'i', 'l', 'o'].isPrefixOf (c :: (cs ++ rest)) = false := by
      rw [Bool.eq_false_iff]
      intro h
      exact h0 (List.isPrefixOf_iff_prefix.1 h)
    rw [List.cons_append, strip, h1, ih]
    rfl

/-- The names of the files: the prefix up to the first `.silo` in it, a dash and the cycle if there is one (0 is a cycle), and `.silo`. -/
theorem C81_file_name (j : Job) {base rest : List Char} (hp : j.filePrefix = base ++ rest)
    (hfirst : ∀ i < base.length, ¬ ".silo".toList <+: j.filePrefix.drop i) (hrest : rest = [] ∨ ".silo".toList <+: rest) :
    (0 ≤ j.cycle → j.fileName = base ++ "-".toList ++ (toString j.cycle).toList ++ ".silo".toList) ∧
      (j.cycle < 0 → j.fileName = base ++ ".silo".toList) := by
  rw [hp] at hfirst
  have hs : strip j.filePrefix = base := by rw [hp, strip_spec _ _ hfirst hrest]
  refine ⟨fun h => ?_, fun h => ?_⟩
  · rw [Job.fileName, if_pos h, hs]
    rfl
  · rw [Job.fileName, if_neg (not_le.2 h), hs]
    rfl

/-- Two dumps of one series with different cycles do not write over each other: their files have different names. -/
theorem C81_cycle (i j : Job) (hp : i.filePrefix = j.filePrefix) (hi : 0 ≤ i.cycle) (hj : 0 ≤ j.cycle) : i.fileName = j.fileName ↔ i.cycle = j.cycle := by
  refine ⟨fun h => ?_, fun h => by rw [Job.fileName, Job.fileName, hp, h]⟩
  rw [Job.fileName, Job.fileName, if_pos hi, if_pos hj, hp, List.append_left_inj, List.append_right_inj] at h
  obtain ⟨m, hm⟩ := Int.eq_ofNat_of_zero_le hi
  obtain ⟨n, hn⟩ := Int.eq_ofNat_of_zero_le hj
  have e : ∀ k : Nat, digits (k : Int) = Nat.toDigits 10 k := fun k => by
    rw [← Nat.toList_repr]
    rfl
  rw [hm, hn, e, e] at h
  have := congrArg (fun l => Nat.ofDigitChars 10 l 0) h
  simp only [Nat.ofDigitChars_ten_toDigits] at this
  rw [hm, hn, this]

/-- The first dump of a series, with a prefix that ends in `.silo`. -/
example : Job.fileName { dim3 := false, nproc := 4, filePrefix := "mesh.silo".toList, cycle := 0 } = "mesh-0.silo".toList :=
  (C81_file_name (base := "mesh".toList) (rest := ".silo".toList) { dim3 := false, nproc := 4, filePrefix := "mesh.silo".toList, cycle := 0 } (by decide +kernel)
    (by decide +kernel) (.inr (by decide +kernel))).1 (by decide)

end Silo
end Verif
