import Verif.Model.Cells1d
import Verif.Spec.Cells1d
import Verif.Props.Ray
import Mathlib.Data.List.Nodup
import Mathlib.Data.List.Perm.Basic
/- C95: lemmas on `constructCells1d`. -/
namespace Verif.Cells1d
open Verif Verif.Geom Verif.Mesh

theorem ray_hit (dbg : Bool) {p n c : V2 ℝ} {r : ℝ} (hr : 0 ≤ r) (hn : dot2 n n = 1) (hin : d2 p c ≤ r ^ 2 - 1 / 10 ^ 10) :
    ∃ t, 0 < t ∧ rayCircle dbg p n c r tol = .ok (along2 p n t) ∧ d2 (along2 p n t) c = r ^ 2 := by
  have e : sq2 p c = d2 p c := by simp only [sq2, d2]
  have tp : (0 : ℝ) < tol := by unfold tol; positivity
  have tv : tol = 1 / 10 ^ 10 := rfl
  obtain ⟨t, t0, h, hc⟩ := C34_circle dbg (p := p) (n := n) (pc := c) (r := r) (tol := tol) hr tp hn (by rw [e]; rw [tv] at tp; linarith)
  rcases hc with hc | ⟨_, hc⟩
  · have hc' : d2 (along2 p n t) c = r ^ 2 := by rw [← hc]; simp only [sq2, d2]
    refine ⟨t, lt_of_le_of_ne t0 ?_, h, hc'⟩
    rintro rfl
    have : along2 p n 0 = p := by simp [along2]
    rw [this] at hc'
    rw [tv] at tp
    linarith
  · rw [e, tv] at hc; linarith

/-- Coordinates along a line: `o` on it, `e` its direction. -/
def X (o e : V2 ℝ) (a b : ℝ) : V2 ℝ := ⟨o.x + a * e.x + b * e.y, o.y + a * e.y - b * e.x⟩

theorem X_d2 {o e : V2 ℝ} (he : dot2 e e = 1) (a b a' b' : ℝ) : d2 (X o e a b) (X o e a' b') = (a - a') ^ 2 + (b - b') ^ 2 := by
  simp only [dot2] at he
  simp only [d2, X]
  linear_combination ((a - a') ^ 2 + (b - b') ^ 2) * he

theorem X_area {o e : V2 ℝ} (he : dot2 e e = 1) (a b a' b' a'' b'' : ℝ) : area2 (X o e a b) (X o e a' b') (X o e a'' b'') = (b' - b) * (a'' - a) - (a' - a) * (b'' - b) := by
  simp only [dot2] at he
  simp only [area2, X]
  linear_combination ((b' - b) * (a'' - a) - (a' - a) * (b'' - b)) * he

theorem X_along {o e : V2 ℝ} (a t : ℝ) : along2 (X o e a 0) e t = X o e (a + t) 0 := by
  simp only [along2, X, V2.mk.injEq]; constructor <;> ring
theorem X_back {o e : V2 ℝ} (a t : ℝ) : along2 (X o e a 0) (V2.scale (-1) e) t = X o e (a - t) 0 := by
  simp only [along2, X, V2.scale, V2.mk.injEq]; constructor <;> ring
theorem X_right {o e : V2 ℝ} (a t : ℝ) : along2 (X o e a 0) (right e) t = X o e a t := by
  simp only [along2, X, right, V2.mk.injEq]; constructor <;> ring
theorem X_left {o e : V2 ℝ} (a t : ℝ) : along2 (X o e a 0) (V2.scale (-1) (right e)) t = X o e a (-t) := by
  simp only [along2, X, right, V2.scale, V2.mk.injEq]; constructor <;> ring

/-- The sorted generators, as positions on a line. -/
structure Frame (gens : List (V2 ℝ)) (ps : List IP) (o e : V2 ℝ) (t : Nat → ℝ) (I : Nat → Nat) : Prop where
  len : ps.length = gens.length
  unit : dot2 e e = 1
  get : ∀ k, k < ps.length → ps[k]? = some (X o e (t k) 0, I k)
  incr : ∀ j k, j < k → k < ps.length → t j + 1 / 10 ^ 100 ≤ t k
  gen : ∀ k, k < ps.length → gens[I k]? = some (X o e (t k) 0)
  inj : ∀ j k, j < ps.length → k < ps.length → I j = I k → j = k
  surj : ∀ i, i < gens.length → ∃ k, k < ps.length ∧ I k = i

theorem Frame.lt {gens : List (V2 ℝ)} {ps : List IP} {o e : V2 ℝ} {t : Nat → ℝ} {I : Nat → Nat} (F : Frame gens ps o e t I) {k : Nat} (hk : k < ps.length) : I k < ps.length := by
  have := F.gen k hk
  rw [F.len]
  exact (List.getElem?_eq_some_iff.mp this).1

theorem direction_eq {o e : V2 ℝ} (he : dot2 e e = 1) {a b : ℝ} (h : a + 1 / 10 ^ 100 ≤ b) : direction (X o e a 0) (X o e b 0) = e := by
  have s0 : 0 < b - a := by have : (0 : ℝ) < 1 / 10 ^ 100 := by positivity
                            linarith
  have e1 : dot2 (X o e b 0 - X o e a 0) (X o e b 0 - X o e a 0) = (b - a) ^ 2 := by
    simp only [dot2, X, V2.sub_x, V2.sub_y] at *
    linear_combination (b - a) ^ 2 * he
  unfold direction unitVector2
  rw [e1, Real.sqrt_sq s0.le, max_eq_right (by linarith)]
  ext
  · simp only [V2.div_x, V2.sub_x, X]; field_simp; ring
  · simp only [V2.div_y, V2.sub_y, X]; field_simp; ring

theorem frame_of {gens : List (V2 ℝ)} {c : V2 ℝ} {radius : ℝ} {ps : List IP} (h : OnLine gens c radius) (hs : IsSort gens ps) : ∃ o e t I, Frame gens ps o e t I := by
  obtain ⟨perm, ord⟩ := hs
  have len : ps.length = gens.length := by rw [perm.length_eq]; simp
  have hn : 2 ≤ ps.length := by rw [len]; exact h.two
  set P : Nat → V2 ℝ := fun k => (ps.getD k (0, 0)).1 with hP
  set I : Nat → Nat := fun k => (ps.getD k (0, 0)).2 with hI
  have get : ∀ k, k < ps.length → ps[k]? = some (P k, I k) := fun k hk => by
    rw [hP, hI]; simp only [List.getD_eq_getElem?_getD, List.getElem?_eq_getElem hk, Option.getD_some]
  have gen : ∀ k, k < ps.length → gens[I k]? = some (P k) := fun k hk => by
    have m : (P k, I k) ∈ gens.zipIdx := perm.mem_iff.mp (List.mem_of_getElem? (get k hk))
    exact List.mem_zipIdx_iff_getElem?.mp m
  have mem : ∀ k, k < ps.length → P k ∈ gens := fun k hk => List.mem_of_getElem? (gen k hk)
  have nd : (ps.map Prod.snd).Nodup := by
    rw [(perm.map Prod.snd).nodup_iff]
    have : gens.zipIdx.map Prod.snd = List.range gens.length := by
      apply List.ext_getElem <;> simp
    rw [this]; exact List.nodup_range
  have inj : ∀ j k, j < ps.length → k < ps.length → I j = I k → j = k := fun j k hj hk e => by
    have := List.nodup_iff_injective_get.mp nd
    have := @this ⟨j, by simpa using hj⟩ ⟨k, by simpa using hk⟩ (by
      have a := get j hj; have b := get k hk
      rw [List.getElem?_eq_getElem hj] at a; rw [List.getElem?_eq_getElem hk] at b
      simp only [List.get_eq_getElem, List.getElem_map, Option.some.inj a, Option.some.inj b, e])
    simpa using this
  have surj : ∀ i, i < gens.length → ∃ k, k < ps.length ∧ I k = i := fun i hi => by
    have m : (gens[i], i) ∈ ps := perm.mem_iff.mpr (List.mem_zipIdx_iff_getElem?.mpr (by simp [hi]))
    obtain ⟨k, hk, e⟩ := List.getElem_of_mem m
    refine ⟨k, hk, ?_⟩
    have a := get k hk
    rw [List.getElem?_eq_getElem hk, e] at a
    exact (Prod.mk.inj (Option.some.inj a)).2.symm
  have apart : ∀ j k, j < k → k < ps.length → 1 / 10 ^ 200 ≤ d2 (P j) (P k) := fun j k hjk hk => by
    have ne : I j ≠ I k := fun e => by have := inj j k (by omega) hk e; omega
    have a := gen j (by omega); have b := gen k hk
    obtain ⟨ha, ea⟩ := List.getElem?_eq_some_iff.mp a
    obtain ⟨hb, eb⟩ := List.getElem?_eq_some_iff.mp b
    rcases lt_or_gt_of_ne ne with l | l
    · have := List.pairwise_iff_getElem.mp h.apart (I j) (I k) ha hb l
      rw [ea, eb] at this; exact this
    · have := List.pairwise_iff_getElem.mp h.apart (I k) (I j) hb ha l
      rw [ea, eb] at this
      rw [show d2 (P j) (P k) = d2 (P k) (P j) by simp only [d2]; ring]; exact this
  have bef : ∀ j k, j < k → k < ps.length → before (P j) (P k) := fun j k hjk hk => by
    have o := List.pairwise_iff_getElem.mp ord j k (by omega) hk hjk
    have a := get j (by omega); have b := get k hk
    rw [List.getElem?_eq_getElem (by omega)] at a b
    rw [Option.some.inj a, Option.some.inj b] at o
    have ap := apart j k hjk hk
    simp only [before, not_or, not_lt, not_and] at o ⊢
    rcases o.1.lt_or_eq with l | l
    · exact Or.inl l
    · refine Or.inr ⟨l, lt_of_le_of_ne (o.2 l.symm) fun ey => ?_⟩
      have : d2 (P j) (P k) = 0 := by simp only [d2, l, ey]; ring
      rw [this] at ap
      have : (0 : ℝ) < 1 / 10 ^ 200 := by positivity
      linarith
  -- the direction
  set u := P 1 - P 0 with hu
  have u2 : dot2 u u = d2 (P 0) (P 1) := by simp only [hu, dot2, d2, V2.sub_x, V2.sub_y]; ring
  have upos : 0 < dot2 u u := by rw [u2]; have := apart 0 1 (by norm_num) hn; have : (0 : ℝ) < 1 / 10 ^ 200 := by positivity
                                 linarith
  set m := Real.sqrt (dot2 u u) with hm
  have mpos : 0 < m := Real.sqrt_pos.mpr upos
  have m2 : m ^ 2 = dot2 u u := Real.sq_sqrt upos.le
  set e : V2 ℝ := ⟨u.x / m, u.y / m⟩ with he
  have unit : dot2 e e = 1 := by
    simp only [dot2] at m2 ⊢
    rw [he]; field_simp; linarith
  set t : Nat → ℝ := fun k => (P k - P 0).x * e.x + (P k - P 0).y * e.y with ht
  have pos : ∀ k, k < ps.length → P k = X (P 0) e (t k) 0 := fun k hk => by
    have a := h.line (P 0) (mem 0 (by omega)) (P 1) (mem 1 (by omega)) (P k) (mem k hk)
    have a' : u.x * (P k - P 0).y - u.y * (P k - P 0).x = 0 := by simpa only [area2, hu, V2.sub_x, V2.sub_y] using a
    have a2 : e.x * (P k - P 0).y - e.y * (P k - P 0).x = 0 := by
      rw [he]; simp only; field_simp; linarith
    have e1 : e.x * e.x + e.y * e.y = 1 := unit
    ext
    · simp only [X, ht, V2.sub_x, V2.sub_y] at a2 ⊢
      linear_combination (-e.y) * a2 - ((P k).x - (P 0).x) * e1
    · simp only [X, ht, V2.sub_x, V2.sub_y] at a2 ⊢
      linear_combination e.x * a2 - ((P k).y - (P 0).y) * e1
  have elex : 0 < e.x ∨ (e.x = 0 ∧ 0 < e.y) := by
    rcases bef 0 1 (by norm_num) hn with l | ⟨l, l'⟩
    · left; rw [he]; exact div_pos (by simp only [hu, V2.sub_x]; linarith) mpos
    · right; rw [he]; exact ⟨by simp only [hu, V2.sub_x, l, sub_self, zero_div], div_pos (by simp only [hu, V2.sub_y]; linarith) mpos⟩
  refine ⟨P 0, e, t, I, len, unit, fun k hk => by rw [get k hk, pos k hk], fun j k hjk hk => ?_, fun k hk => by rw [gen k hk, pos k hk], inj, surj⟩
  have b := bef j k hjk hk
  have ap := apart j k hjk hk
  rw [pos j (by omega), pos k hk] at b ap
  rw [X_d2 unit] at ap
  have sgn : t j < t k := by
    by_contra hc
    have hc := not_lt.mp hc
    simp only [before, X, zero_mul, add_zero, sub_zero] at b
    rcases elex with l | ⟨l, l'⟩
    · rcases b with b | ⟨b, b'⟩
      · nlinarith
      · have : t j = t k := by
          have : (t j - t k) * e.x = 0 := by linarith
          rcases mul_eq_zero.mp this with q | q
          · linarith
          · linarith
        rw [this] at b'; linarith
    · rw [l] at b
      rcases b with b | ⟨_, b'⟩
      · simp at b
      · nlinarith
  by_contra hc
  have hc := not_le.mp hc
  have : (t j - t k) ^ 2 < (1 / 10 ^ 100) ^ 2 := by
    apply sq_lt_sq'
    · linarith
    · have : (0 : ℝ) < 1 / 10 ^ 100 := by positivity
      linarith
  rw [div_pow, one_pow, ← pow_mul] at this
  norm_num at this ap
  linarith

/-! ### The loop -/

theorem pushAt_ok {cells : List (List Nat)} {i v : Nat} {c : List Nat} (h : cells[i]? = some c) : pushAt cells i v = .ok (cells.set i (c ++ [v])) := by
  unfold pushAt rd wr
  rw [h, Res.bind_eq, Res.bind_ok, if_pos (List.getElem?_eq_some_iff.mp h).1]

theorem getElem?_set_eq {α : Type} {l : List α} {i : Nat} {a b : α} (h : l[i]? = some b) : (l.set i a)[i]? = some a := by
  rw [List.getElem?_set_self (List.getElem?_eq_some_iff.mp h).1]

theorem push2_ok {cells : List (List Nat)} {i v w : Nat} {c : List Nat} (h : cells[i]? = some c) :
    (pushAt cells i v).bind (fun s => pushAt s i w) = .ok (cells.set i (c ++ [v, w])) := by
  rw [pushAt_ok h, Res.bind_ok, pushAt_ok (getElem?_set_eq h), List.set_set]
  simp

theorem wr_ok {α : Type} {l : List α} {i : Nat} {a : α} (h : i < l.length) : wr l i a = .ok (l.set i a) := by unfold wr; rw [if_pos h]

theorem rd_ok {α : Type} {l : List α} {i : Nat} {a : α} (h : l[i]? = some a) : rd l i = .ok a := by unfold rd; rw [h]

/-- The corners of a cell before its second face. -/
def pre (k : Nat) : List Nat := if k = 0 then [0] else [2 * k, 2 * k - 1]
/-- The rest. -/
def post (n k : Nat) : List Nat := if k + 1 = n then [2 * k + 1] else [2 * k + 1, 2 * k + 2]

/-- After the faces up to number `i`. -/
structure Inv (n : Nat) (I : Nat → Nat) (N : Nat → V2 ℝ) (i : Nat) (s : Out) : Prop where
  len1 : s.1.length = n
  len2 : s.2.length = 2 * n
  nodes : ∀ m, m ≤ 2 * i + 2 → s.2[m]? = some (N m)
  done : ∀ k, k ≤ i → s.1[I k]? = some (pre k ++ [2 * k + 1, 2 * k + 2])
  half : s.1[I (i + 1)]? = some (pre (i + 1))
  todo : ∀ k, i + 1 < k → k < n → s.1[I k]? = some []

theorem getElem?_set_ne' {α : Type} {l : List α} {i j : Nat} {a : α} (h : i ≠ j) : (l.set i a)[j]? = l[j]? := List.getElem?_set_ne h

section
variable {gens : List (V2 ℝ)} {ps : List IP} {o e : V2 ℝ} {t : Nat → ℝ} {I : Nat → Nat} (F : Frame gens ps o e t I)
include F

theorem mid_step (dbg : Bool) {c : V2 ℝ} {radius : ℝ} {N : Nat → V2 ℝ} {i : Nat} {s : Out} (hi : i + 2 < ps.length) (h : Inv ps.length I N i s)
    (hf : faceEnds dbg c radius (X o e (t (i + 1)) 0) (X o e (t (i + 2)) 0) = .ok (N (2 * (i + 1) + 1), N (2 * (i + 1) + 2))) :
    ∃ s', midCell dbg c radius ps s (i + 1) = .ok s' ∧ Inv ps.length I N (i + 1) s' := by
  have ne : ∀ j k, j < ps.length → k < ps.length → j ≠ k → I j ≠ I k := fun j k hj hk hne e => hne (F.inj j k hj hk e)
  refine ⟨((s.1.set (I (i + 1)) (pre (i + 1) ++ [2 * (i + 1) + 1, 2 * (i + 1) + 1 + 1])).set (I (i + 2)) [2 * (i + 1) + 1 + 1, 2 * (i + 1) + 1],
    (s.2.set (2 * (i + 1) + 1) (N (2 * (i + 1) + 1))).set (2 * (i + 1) + 1 + 1) (N (2 * (i + 1) + 2))), ?_, ?_⟩
  · unfold midCell
    simp only [Res.bind_eq]
    rw [rd_ok (F.get (i + 1) (by omega)), Res.bind_ok, rd_ok (F.get (i + 1 + 1) (by omega)), Res.bind_ok]
    dsimp only
    rw [hf, Res.bind_ok, wr_ok (by rw [h.len2]; omega), Res.bind_ok, wr_ok (by rw [List.length_set, h.len2]; omega), Res.bind_ok]
    rw [← Res.bind_assoc', push2_ok h.half, Res.bind_ok, ← Res.bind_assoc', push2_ok (c := [])]
    · rfl
    · rw [getElem?_set_ne' (ne _ _ (by omega) (by omega) (by omega))]
      exact h.todo (i + 2) (by omega) (by omega)
  · refine ⟨by simp [h.len1], by simp [h.len2], fun m hm => ?_, fun k hk => ?_, ?_, fun k hk hk' => ?_⟩
    · rcases (by omega : m ≤ 2 * i + 2 ∨ m = 2 * (i + 1) + 1 ∨ m = 2 * (i + 1) + 2) with q | rfl | rfl
      · rw [getElem?_set_ne' (by omega), getElem?_set_ne' (by omega)]; exact h.nodes m q
      · rw [getElem?_set_ne' (by omega), List.getElem?_set_self (by rw [h.len2]; omega)]
      · rw [List.getElem?_set_self (by rw [List.length_set, h.len2]; omega)]
    · rw [getElem?_set_ne' (ne _ _ (by omega) (by omega) (by omega))]
      rcases (by omega : k ≤ i ∨ k = i + 1) with q | rfl
      · rw [getElem?_set_ne' (ne _ _ (by omega) (by omega) (by omega))]; exact h.done k q
      · rw [getElem?_set_eq h.half]
    · rw [List.getElem?_set_self (by rw [List.length_set, h.len1]; exact F.lt (by omega))]
      simp only [pre, if_neg (by omega : ¬ i + 1 + 1 = 0), Option.some.injEq, List.cons.injEq, and_true]
      omega
    · rw [getElem?_set_ne' (ne _ _ (by omega) (by omega) (by omega)), getElem?_set_ne' (ne _ _ (by omega) (by omega) (by omega))]
      exact h.todo k (by omega) hk'

theorem first_step (dbg : Bool) {c : V2 ℝ} {radius : ℝ} {N : Nat → V2 ℝ} (hn : 2 ≤ ps.length) (he : rayCircle dbg (X o e (t 0) 0) (V2.scale (-1) e) c radius tol = .ok (N 0))
    (hf : faceEnds dbg c radius (X o e (t 0) 0) (X o e (t 1) 0) = .ok (N 1, N 2)) :
    ∃ s', firstCell dbg c radius ps (List.replicate ps.length [], List.replicate (2 * ps.length) 0) = .ok s' ∧ Inv ps.length I N 0 s' := by
  have ne : ∀ j k, j < ps.length → k < ps.length → j ≠ k → I j ≠ I k := fun j k hj hk hne e => hne (F.inj j k hj hk e)
  have rep : ∀ k, k < ps.length → (List.replicate ps.length ([] : List Nat))[I k]? = some [] := fun k hk => by
    rw [List.getElem?_replicate, if_pos (F.lt hk)]
  refine ⟨(((List.replicate ps.length []).set (I 0) [0, 1, 2]).set (I 1) [2, 1], (((List.replicate (2 * ps.length) 0).set 0 (N 0)).set 1 (N 1)).set 2 (N 2)), ?_, ?_⟩
  · unfold firstCell
    simp only [Res.bind_eq]
    rw [rd_ok (F.get 0 (by omega)), Res.bind_ok, rd_ok (F.get 1 (by omega)), Res.bind_ok]
    dsimp only
    rw [direction_eq F.unit (F.incr 0 1 (by omega) (by omega)), he, Res.bind_ok, wr_ok (by simp; omega), Res.bind_ok, hf, Res.bind_ok, wr_ok (by simp; omega), Res.bind_ok, wr_ok (by simp; omega), Res.bind_ok]
    rw [pushAt_ok (rep 0 (by omega)), Res.bind_ok, ← Res.bind_assoc', push2_ok (getElem?_set_eq (rep 0 (by omega))), Res.bind_ok, ← Res.bind_assoc', List.set_set, push2_ok (c := [])]
    · rfl
    · rw [getElem?_set_ne' (ne _ _ (by omega) (by omega) (by omega))]
      exact rep 1 (by omega)
  · refine ⟨by simp, by simp, fun m hm => ?_, fun k hk => ?_, ?_, fun k hk hk' => ?_⟩
    · rcases (by omega : m = 0 ∨ m = 1 ∨ m = 2) with rfl | rfl | rfl
      · rw [getElem?_set_ne' (by omega), getElem?_set_ne' (by omega), List.getElem?_set_self (by simp; omega)]
      · rw [getElem?_set_ne' (by omega), List.getElem?_set_self (by simp; omega)]
      · rw [List.getElem?_set_self (by simp; omega)]
    · obtain rfl : k = 0 := by omega
      rw [getElem?_set_ne' (ne _ _ (by omega) (by omega) (by omega)), getElem?_set_eq (rep 0 (by omega))]
      rfl
    · rw [List.getElem?_set_self (by simpa using F.lt (by omega))]; rfl
    · rw [getElem?_set_ne' (ne _ _ (by omega) (by omega) (by omega)), getElem?_set_ne' (ne _ _ (by omega) (by omega) (by omega))]
      exact rep k hk'

theorem loop_steps (dbg : Bool) {c : V2 ℝ} {radius : ℝ} {N : Nat → V2 ℝ}
    (hf : ∀ k, k + 1 < ps.length → faceEnds dbg c radius (X o e (t k) 0) (X o e (t (k + 1)) 0) = .ok (N (2 * k + 1), N (2 * k + 2))) :
    ∀ (m i : Nat) (s : Out), i + m + 2 = ps.length → Inv ps.length I N i s → ∃ s', (List.range' (i + 1) m).foldlM (midCell dbg c radius ps) s = .ok s' ∧ Inv ps.length I N (i + m) s'
  | 0, i, s, _, h => ⟨s, rfl, h⟩
  | m + 1, i, s, hm, h => by
    obtain ⟨s1, e1, h1⟩ := mid_step F dbg (by omega) h (hf (i + 1) (by omega))
    obtain ⟨s2, e2, h2⟩ := loop_steps dbg hf m (i + 1) s1 (by omega) h1
    refine ⟨s2, ?_, by rw [show i + (m + 1) = i + 1 + m by omega]; exact h2⟩
    rw [List.range'_succ, List.foldlM_cons, Res.bind_eq, e1, Res.bind_ok]
    exact e2

/-- The result, cell by cell. -/
theorem construct_ok (dbg : Bool) {c : V2 ℝ} {radius : ℝ} {N : Nat → V2 ℝ} (hn : 2 ≤ ps.length) (he : rayCircle dbg (X o e (t 0) 0) (V2.scale (-1) e) c radius tol = .ok (N 0))
    (hf : ∀ k, k + 1 < ps.length → faceEnds dbg c radius (X o e (t k) 0) (X o e (t (k + 1)) 0) = .ok (N (2 * k + 1), N (2 * k + 2)))
    (hl : rayCircle dbg (X o e (t (ps.length - 1)) 0) e c radius tol = .ok (N (2 * ps.length - 1))) :
    ∃ cells nodes, constructCells1d dbg c radius ps = .ok (cells, nodes) ∧ cells.length = ps.length ∧ nodes.length = 2 * ps.length ∧ (∀ m, m < 2 * ps.length → nodes[m]? = some (N m)) ∧
      ∀ k, k < ps.length → cells[I k]? = some (pre k ++ post ps.length k) := by
  have ne : ∀ j k, j < ps.length → k < ps.length → j ≠ k → I j ≠ I k := fun j k hj hk hne e => hne (F.inj j k hj hk e)
  obtain ⟨s0, e0, h0⟩ := first_step F dbg hn he (hf 0 (by omega))
  obtain ⟨s1, e1, h1⟩ := loop_steps F dbg hf (ps.length - 2) 0 s0 (by omega) h0
  have hh := h1.half
  rw [show 0 + (ps.length - 2) + 1 = ps.length - 1 by omega] at hh
  refine ⟨s1.1.set (I (ps.length - 1)) (pre (ps.length - 1) ++ [2 * ps.length - 1]), s1.2.set (2 * ps.length - 1) (N (2 * ps.length - 1)), ?_, by simp [h1.len1], by simp [h1.len2], fun m hm => ?_, fun k hk => ?_⟩
  · unfold constructCells1d
    simp only [Res.bind_eq]
    rw [e0, Res.bind_ok, e1, Res.bind_ok]
    unfold lastCell
    simp only [Res.bind_eq]
    rw [rd_ok (F.get (ps.length - 1) (by omega)), Res.bind_ok, rd_ok (F.get (ps.length - 2) (by omega)), Res.bind_ok]
    dsimp only
    rw [direction_eq F.unit (F.incr _ _ (by omega) (by omega)), hl, Res.bind_ok, wr_ok (by rw [h1.len2]; omega), Res.bind_ok, pushAt_ok hh, Res.bind_ok, Res.pure_eq, Res.bind_ok, Res.assert_true dbg (by simp [h1.len2]), Res.bind_ok,
      Res.assert_true dbg (by simp [h1.len1]), Res.bind_ok]
    rfl
  · by_cases q : m = 2 * ps.length - 1
    · rw [q, List.getElem?_set_self (by rw [h1.len2]; omega)]
    · rw [getElem?_set_ne' (by omega)]; exact h1.nodes m (by omega)
  · by_cases q : k = ps.length - 1
    · rw [q, getElem?_set_eq hh, post, if_pos (by omega)]
      rw [show 2 * (ps.length - 1) + 1 = 2 * ps.length - 1 by omega]
    · rw [getElem?_set_ne' (ne _ _ (by omega) (by omega) (by omega)), h1.done k (by omega), post, if_neg (by omega)]
end

/-! ### The geometry -/

/-- Where the nodes are, along the line and to its right. -/
structure Places (n : Nat) (t A B : Nat → ℝ) : Prop where
  two : 2 ≤ n
  incr : ∀ j k, j < k → k < n → t j < t k
  west : A 0 < t 0
  west0 : B 0 = 0
  right : ∀ k, k + 1 < n → A (2 * k + 1) = (t k + t (k + 1)) / 2 ∧ 0 < B (2 * k + 1)
  left : ∀ k, k + 1 < n → A (2 * k + 2) = (t k + t (k + 1)) / 2 ∧ B (2 * k + 2) < 0
  east : t (n - 1) < A (2 * n - 1)
  east0 : B (2 * n - 1) = 0

theorem pre_succ (j : Nat) : pre (j + 1) = [2 * j + 2, 2 * j + 1] := by
  unfold pre; rw [if_neg (by omega)]; rfl

theorem sides3 (a b c : Nat) : sides [a, b, c] = [(a, b), (b, c), (c, a)] := rfl
theorem sides4 (a b c d : Nat) : sides [a, b, c, d] = [(a, b), (b, c), (c, d), (d, a)] := rfl

theorem cell_cases {n k : Nat} (hn : 2 ≤ n) (hk : k < n) : (k = 0 ∧ pre k ++ post n k = [0, 1, 2]) ∨
    (∃ j, k = j + 1 ∧ j + 2 < n ∧ pre k ++ post n k = [2 * j + 2, 2 * j + 1, 2 * (j + 1) + 1, 2 * (j + 1) + 2]) ∨
    (∃ j, k = j + 1 ∧ j + 2 = n ∧ pre k ++ post n k = [2 * j + 2, 2 * j + 1, 2 * n - 1]) := by
  rcases k with _ | j
  · left; refine ⟨rfl, ?_⟩
    unfold pre post; rw [if_pos rfl, if_neg (by omega)]; rfl
  · right
    rw [pre_succ]; unfold post
    by_cases q : j + 1 + 1 = n
    · right; refine ⟨j, rfl, q, ?_⟩
      rw [if_pos q, show 2 * (j + 1) + 1 = 2 * n - 1 by omega]; rfl
    · left; refine ⟨j, rfl, by omega, ?_⟩
      rw [if_neg q]; rfl

theorem left_pos {n : Nat} {t A B : Nat → ℝ} (h : Places n t A B) {o e : V2 ℝ} (he : dot2 e e = 1) {k : Nat} (hk : k < n) :
    ∀ q ∈ sides (pre k ++ post n k), 0 < area2 (X o e (A q.1) (B q.1)) (X o e (A q.2) (B q.2)) (X o e (t k) 0) := by
  intro q hq
  rw [X_area he]
  rcases cell_cases h.two hk with ⟨rfl, e⟩ | ⟨j, rfl, hj, e⟩ | ⟨j, rfl, hj, e⟩
  · rw [e, sides3] at hq
    obtain ⟨a1, b1⟩ := h.right 0 h.two
    obtain ⟨a2, b2⟩ := h.left 0 h.two
    have i := h.incr 0 1 (by norm_num) h.two
    have w := h.west
    have w0 := h.west0
    simp only [Nat.mul_zero, Nat.zero_add] at a1 b1 a2 b2
    simp only [List.mem_cons, List.not_mem_nil, or_false] at hq
    rcases hq with rfl | rfl | rfl
    · simp only [w0]; nlinarith
    · simp only [a1, a2]; nlinarith
    · simp only [w0]; nlinarith
  · rw [e, sides4] at hq
    obtain ⟨a1, b1⟩ := h.right j (by omega)
    obtain ⟨a2, b2⟩ := h.left j (by omega)
    obtain ⟨a3, b3⟩ := h.right (j + 1) (by omega)
    obtain ⟨a4, b4⟩ := h.left (j + 1) (by omega)
    have i1 := h.incr j (j + 1) (by omega) (by omega)
    have i2 := h.incr (j + 1) (j + 1 + 1) (by omega) (by omega)
    simp only [List.mem_cons, List.not_mem_nil, or_false] at hq
    rcases hq with rfl | rfl | rfl | rfl
    · simp only [a1, a2]; nlinarith
    · simp only [a1, a3]; nlinarith [mul_pos b1 (sub_pos.mpr i2), mul_pos b3 (sub_pos.mpr i1)]
    · simp only [a3, a4]; nlinarith
    · simp only [a2, a4]; nlinarith [mul_pos (neg_pos.mpr b2) (sub_pos.mpr i2), mul_pos (neg_pos.mpr b4) (sub_pos.mpr i1)]
  · rw [e, sides3] at hq
    obtain ⟨a1, b1⟩ := h.right j (by omega)
    obtain ⟨a2, b2⟩ := h.left j (by omega)
    have i1 := h.incr j (j + 1) (by omega) (by omega)
    have w := h.east
    have w0 := h.east0
    rw [show n - 1 = j + 1 by omega] at w
    simp only [List.mem_cons, List.not_mem_nil, or_false] at hq
    rcases hq with rfl | rfl | rfl
    · simp only [a1, a2]; nlinarith
    · simp only [w0]; nlinarith
    · simp only [w0]; nlinarith

/-- The nodes of a cell are between its bisectors. -/
theorem between {n : Nat} {t A B : Nat → ℝ} (h : Places n t A B) {k : Nat} (hk : k < n) : ∀ m ∈ pre k ++ post n k, m < 2 * n ∧ (k + 1 < n → A m ≤ (t k + t (k + 1)) / 2) ∧ (∀ j, j + 1 = k → (t j + t k) / 2 ≤ A m) := by
  intro m hm
  have two := h.two
  rcases cell_cases h.two hk with ⟨rfl, e⟩ | ⟨j, rfl, hj, e⟩ | ⟨j, rfl, hj, e⟩
  · rw [e] at hm
    obtain ⟨a1, b1⟩ := h.right 0 h.two
    obtain ⟨a2, b2⟩ := h.left 0 h.two
    have i := h.incr 0 1 (by norm_num) h.two
    have w := h.west
    simp only [Nat.mul_zero, Nat.zero_add] at a1 b1 a2 b2
    simp only [List.mem_cons, List.not_mem_nil, or_false] at hm
    refine ⟨by omega, fun _ => ?_, fun j hj => by omega⟩
    rcases hm with rfl | rfl | rfl
    · simp only [Nat.zero_add]; linarith
    · simp only [Nat.zero_add]; linarith
    · simp only [Nat.zero_add]; linarith
  · rw [e] at hm
    obtain ⟨a1, b1⟩ := h.right j (by omega)
    obtain ⟨a2, b2⟩ := h.left j (by omega)
    obtain ⟨a3, b3⟩ := h.right (j + 1) (by omega)
    obtain ⟨a4, b4⟩ := h.left (j + 1) (by omega)
    have i1 := h.incr j (j + 1) (by omega) (by omega)
    have i2 := h.incr (j + 1) (j + 1 + 1) (by omega) (by omega)
    simp only [List.mem_cons, List.not_mem_nil, or_false] at hm
    refine ⟨by omega, fun _ => ?_, fun j' hj' => ?_⟩
    · rcases hm with rfl | rfl | rfl | rfl <;> linarith
    · obtain rfl : j' = j := by omega
      rcases hm with rfl | rfl | rfl | rfl <;> linarith
  · rw [e] at hm
    obtain ⟨a1, b1⟩ := h.right j (by omega)
    obtain ⟨a2, b2⟩ := h.left j (by omega)
    have i1 := h.incr j (j + 1) (by omega) (by omega)
    have w := h.east
    rw [show n - 1 = j + 1 by omega] at w
    simp only [List.mem_cons, List.not_mem_nil, or_false] at hm
    refine ⟨by omega, fun _ => by omega, fun j' hj' => ?_⟩
    obtain rfl : j' = j := by omega
    rcases hm with rfl | rfl | rfl <;> linarith

theorem near_place {n : Nat} {t A B : Nat → ℝ} (h : Places n t A B) {k m j : Nat} (hk : k < n) (hm : m ∈ pre k ++ post n k) (hj : j < n) : (A m - t k) ^ 2 ≤ (A m - t j) ^ 2 := by
  obtain ⟨_, u, d⟩ := between h hk m hm
  rcases lt_trichotomy j k with q | rfl | q
  · have a := d (k - 1) (by omega)
    have i := h.incr j k q hk
    have i' : t j ≤ t (k - 1) := by
      rcases (by omega : j = k - 1 ∨ j < k - 1) with r | r
      · rw [r]
      · exact (h.incr j (k - 1) r (by omega)).le
    nlinarith
  · exact le_rfl
  · have a := u (by omega)
    have i := h.incr k j q hj
    have i' : t (k + 1) ≤ t j := by
      rcases (by omega : j = k + 1 ∨ k + 1 < j) with r | r
      · rw [r]
      · exact (h.incr (k + 1) j r hj).le
    nlinarith

theorem used_place {n : Nat} (hn : 2 ≤ n) {m : Nat} (hm : m < 2 * n) : ∃ k, k < n ∧ m ∈ pre k ++ post n k := by
  by_cases h0 : m = 0
  · exact ⟨0, by omega, by rw [h0]; simp [pre]⟩
  · by_cases h1 : m % 2 = 1
    · refine ⟨(m - 1) / 2, by omega, ?_⟩
      have : m = 2 * ((m - 1) / 2) + 1 := by omega
      unfold post
      apply List.mem_append_right
      split_ifs <;> simp only [List.mem_cons] <;> omega
    · refine ⟨(m - 2) / 2, by omega, ?_⟩
      have : m = 2 * ((m - 2) / 2) + 2 := by omega
      unfold post
      apply List.mem_append_right
      rw [if_neg (by omega)]
      simp only [List.mem_cons]; omega

theorem size_place {n k : Nat} (hn : 2 ≤ n) (hk : k < n) : 3 ≤ (pre k ++ post n k).length := by
  rcases cell_cases hn hk with ⟨rfl, e⟩ | ⟨j, rfl, hj, e⟩ | ⟨j, rfl, hj, e⟩ <;> rw [e] <;> simp

theorem shared_place {n k : Nat} (hk : k + 1 < n) : (2 * k + 1, 2 * k + 2) ∈ sides (pre k ++ post n k) ∧ (2 * k + 2, 2 * k + 1) ∈ sides (pre (k + 1) ++ post n (k + 1)) := by
  constructor
  · rcases cell_cases (k := k) (by omega : 2 ≤ n) (by omega) with ⟨rfl, e⟩ | ⟨j, rfl, hj, e⟩ | ⟨j, rfl, hj, e⟩
    · rw [e, sides3]; simp
    · rw [e, sides4]; simp
    · omega
  · rcases cell_cases (k := k + 1) (by omega : 2 ≤ n) hk with ⟨q, e⟩ | ⟨j, q, hj, e⟩ | ⟨j, q, hj, e⟩
    · omega
    · obtain rfl : j = k := by omega
      rw [e, sides4]; simp
    · obtain rfl : j = k := by omega
      rw [e, sides3]; simp

section
variable {gens : List (V2 ℝ)} {ps : List IP} {o e : V2 ℝ} {t : Nat → ℝ} {I : Nat → Nat} (F : Frame gens ps o e t I)
include F

theorem places_of (dbg : Bool) {c : V2 ℝ} {radius : ℝ} (h : OnLine gens c radius) : ∃ A B, Places ps.length t A B ∧
    (∀ m, m < 2 * ps.length → d2 (X o e (A m) (B m)) c = radius ^ 2) ∧
    rayCircle dbg (X o e (t 0) 0) (V2.scale (-1) e) c radius tol = .ok (X o e (A 0) (B 0)) ∧
    (∀ k, k + 1 < ps.length → faceEnds dbg c radius (X o e (t k) 0) (X o e (t (k + 1)) 0) = .ok (X o e (A (2 * k + 1)) (B (2 * k + 1)), X o e (A (2 * k + 2)) (B (2 * k + 2)))) ∧
    rayCircle dbg (X o e (t (ps.length - 1)) 0) e c radius tol = .ok (X o e (A (2 * ps.length - 1)) (B (2 * ps.length - 1))) := by
  have n2 : 2 ≤ ps.length := by rw [F.len]; exact h.two
  have he := F.unit
  have he' : dot2 (V2.scale (-1) e) (V2.scale (-1) e) = 1 := by simp only [dot2, V2.scale] at he ⊢; linarith
  have hr : dot2 (right e) (right e) = 1 := by simp only [dot2, right] at he ⊢; linarith
  have hr' : dot2 (V2.scale (-1) (right e)) (V2.scale (-1) (right e)) = 1 := by simp only [dot2, right, V2.scale] at he ⊢; linarith
  have ins : ∀ k, k < ps.length → d2 (X o e (t k) 0) c ≤ radius ^ 2 - 1 / 10 ^ 10 := fun k hk => h.inside _ (List.mem_of_getElem? (F.gen k hk))
  have insm : ∀ k, k + 1 < ps.length → d2 (X o e ((t k + t (k + 1)) / 2) 0) c ≤ radius ^ 2 - 1 / 10 ^ 10 := fun k hk => by
    have a := ins k (by omega); have b := ins (k + 1) hk
    simp only [d2, X] at a b ⊢
    nlinarith [sq_nonneg ((t k - t (k + 1)) * e.x), sq_nonneg ((t k - t (k + 1)) * e.y)]
  obtain ⟨w, w0, we, wc⟩ := ray_hit dbg h.radius he' (ins 0 (by omega))
  obtain ⟨v, v0, ve, vc⟩ := ray_hit dbg h.radius he (ins (ps.length - 1) (by omega))
  rw [X_back] at we wc
  rw [X_along] at ve vc
  have R : ∀ k, ∃ b, k + 1 < ps.length → 0 < b ∧ rayCircle dbg (X o e ((t k + t (k + 1)) / 2) 0) (right e) c radius tol = .ok (X o e ((t k + t (k + 1)) / 2) b) ∧ d2 (X o e ((t k + t (k + 1)) / 2) b) c = radius ^ 2 := fun k => by
    by_cases hk : k + 1 < ps.length
    · obtain ⟨b, b0, be, bc⟩ := ray_hit dbg h.radius hr (insm k hk)
      rw [X_right] at be bc
      exact ⟨b, fun _ => ⟨b0, be, bc⟩⟩
    · exact ⟨0, fun q => absurd q hk⟩
  have L : ∀ k, ∃ b, k + 1 < ps.length → 0 < b ∧ rayCircle dbg (X o e ((t k + t (k + 1)) / 2) 0) (V2.scale (-1) (right e)) c radius tol = .ok (X o e ((t k + t (k + 1)) / 2) (-b)) ∧ d2 (X o e ((t k + t (k + 1)) / 2) (-b)) c = radius ^ 2 := fun k => by
    by_cases hk : k + 1 < ps.length
    · obtain ⟨b, b0, be, bc⟩ := ray_hit dbg h.radius hr' (insm k hk)
      rw [X_left] at be bc
      exact ⟨b, fun _ => ⟨b0, be, bc⟩⟩
    · exact ⟨0, fun q => absurd q hk⟩
  choose bR hR using R
  choose bL hL using L
  set A : Nat → ℝ := fun m => if m = 0 then t 0 - w else if m = 2 * ps.length - 1 then t (ps.length - 1) + v else (t ((m - 1) / 2) + t ((m - 1) / 2 + 1)) / 2 with hA
  set B : Nat → ℝ := fun m => if m = 0 then 0 else if m = 2 * ps.length - 1 then 0 else if m % 2 = 1 then bR ((m - 1) / 2) else - bL ((m - 1) / 2) with hB
  have A0 : A 0 = t 0 - w := by rw [hA]; rfl
  have B0 : B 0 = 0 := by rw [hB]; rfl
  have An : A (2 * ps.length - 1) = t (ps.length - 1) + v := by rw [hA]; dsimp only; rw [if_neg (by omega), if_pos rfl]
  have Bn : B (2 * ps.length - 1) = 0 := by rw [hB]; dsimp only; rw [if_neg (by omega), if_pos rfl]
  have A1 : ∀ k, k + 1 < ps.length → A (2 * k + 1) = (t k + t (k + 1)) / 2 := fun k hk => by
    rw [hA]; dsimp only; rw [if_neg (by omega), if_neg (by omega), show (2 * k + 1 - 1) / 2 = k by omega]
  have A2 : ∀ k, k + 1 < ps.length → A (2 * k + 2) = (t k + t (k + 1)) / 2 := fun k hk => by
    rw [hA]; dsimp only; rw [if_neg (by omega), if_neg (by omega), show (2 * k + 2 - 1) / 2 = k by omega]
  have B1 : ∀ k, k + 1 < ps.length → B (2 * k + 1) = bR k := fun k hk => by
    rw [hB]; dsimp only; rw [if_neg (by omega), if_neg (by omega), if_pos (by omega), show (2 * k + 1 - 1) / 2 = k by omega]
  have B2 : ∀ k, k + 1 < ps.length → B (2 * k + 2) = - bL k := fun k hk => by
    rw [hB]; dsimp only; rw [if_neg (by omega), if_neg (by omega), if_neg (by omega), show (2 * k + 2 - 1) / 2 = k by omega]
  have inc : ∀ j k, j < k → k < ps.length → t j < t k := fun j k hj hk => by
    have := F.incr j k hj hk
    have : (0 : ℝ) < 1 / 10 ^ 100 := by positivity
    linarith
  refine ⟨A, B, ⟨n2, inc, by rw [A0]; linarith, B0, fun k hk => ⟨A1 k hk, by rw [B1 k hk]; exact (hR k hk).1⟩, fun k hk => ⟨A2 k hk, by rw [B2 k hk]; linarith [(hL k hk).1]⟩, by rw [An]; linarith, Bn⟩, fun m hm => ?_, ?_, fun k hk => ?_, ?_⟩
  · by_cases q0 : m = 0
    · rw [q0, A0, B0]; exact wc
    · by_cases qn : m = 2 * ps.length - 1
      · rw [qn, An, Bn]; exact vc
      · by_cases q : m % 2 = 1
        · rw [show m = 2 * ((m - 1) / 2) + 1 by omega, A1 _ (by omega), B1 _ (by omega)]
          exact (hR _ (by omega)).2.2
        · rw [show m = 2 * ((m - 2) / 2) + 2 by omega, A2 _ (by omega), B2 _ (by omega)]
          exact (hL _ (by omega)).2.2
  · rw [A0, B0]; exact we
  · have mid : V2.scale (1 / 2) (X o e (t k) 0 + X o e (t (k + 1)) 0) = X o e ((t k + t (k + 1)) / 2) 0 := by
      ext
      · simp only [V2.scale, X, V2.add_x, V2.add_y]; ring
      · simp only [V2.scale, X, V2.add_x, V2.add_y]; ring
    unfold faceEnds
    simp only [Res.bind_eq]
    rw [mid, direction_eq he (F.incr k (k + 1) (by omega) hk), (hR k hk).2.1, Res.bind_ok, (hL k hk).2.1, Res.bind_ok, A1 k hk, A2 k hk, B1 k hk, B2 k hk]
    rfl
  · rw [An, Bn]; exact ve

theorem good_of (dbg : Bool) {c : V2 ℝ} {radius : ℝ} (h : OnLine gens c radius) : ∃ cells nodes, constructCells1d dbg c radius ps = .ok (cells, nodes) ∧ GoodCells gens c radius cells nodes ∧ Shared gens cells := by
  have n2 : 2 ≤ ps.length := by rw [F.len]; exact h.two
  have he := F.unit
  obtain ⟨A, B, P, circ, e0, ef, el⟩ := places_of F dbg h
  obtain ⟨cells, nodes, eq, l1, l2, hN, hC⟩ := construct_ok F (N := fun m => X o e (A m) (B m)) dbg n2 e0 ef el
  have cell : ∀ i l, cells[i]? = some l → ∃ k, k < ps.length ∧ I k = i ∧ l = pre k ++ post ps.length k := fun i l hl => by
    obtain ⟨k, hk, e⟩ := F.surj i (by rw [← F.len, ← l1]; exact (List.getElem?_eq_some_iff.mp hl).1)
    refine ⟨k, hk, e, ?_⟩
    have := hC k hk
    rw [e, hl] at this
    exact Option.some.inj this
  have genk : ∀ k g, k < ps.length → gens[I k]? = some g → g = X o e (t k) 0 := fun k g hk hg => by
    have := F.gen k hk
    rw [hg] at this; exact Option.some.inj this
  have nod : ∀ m p, nodes[m]? = some p → p = X o e (A m) (B m) := fun m p hp => by
    have := hN m (by rw [← l2]; exact (List.getElem?_eq_some_iff.mp hp).1)
    rw [hp] at this; exact Option.some.inj this
  have gmem : ∀ g ∈ gens, ∃ k, k < ps.length ∧ g = X o e (t k) 0 := fun g hg => by
    obtain ⟨i, hi, e⟩ := List.getElem_of_mem hg
    obtain ⟨k, hk, e'⟩ := F.surj i hi
    exact ⟨k, hk, genk k g hk (by rw [e', List.getElem?_eq_getElem hi, e])⟩
  refine ⟨cells, nodes, eq, ⟨by rw [l1, F.len], by rw [l2, F.len], fun p hp => ?_, fun l hl => ?_, fun l hl m hm => ?_, fun m hm => ?_, fun i g l hg hl q hq p p' hp hp' => ?_, fun i g l hg hl m hm p hp w hw => ?_⟩, ?_⟩
  · obtain ⟨m, hm, e⟩ := List.getElem_of_mem hp
    rw [nod m p (by rw [List.getElem?_eq_getElem hm, e])]
    exact circ m (by rw [← l2]; exact hm)
  · obtain ⟨i, hi, e⟩ := List.getElem_of_mem hl
    obtain ⟨k, hk, _, rfl⟩ := cell i l (by rw [List.getElem?_eq_getElem hi, e])
    exact size_place n2 hk
  · obtain ⟨i, hi, e⟩ := List.getElem_of_mem hl
    obtain ⟨k, hk, _, rfl⟩ := cell i l (by rw [List.getElem?_eq_getElem hi, e])
    rw [l2]; exact (between P hk m hm).1
  · obtain ⟨k, hk, hm'⟩ := used_place n2 (by rw [← l2]; exact hm)
    exact ⟨_, List.mem_of_getElem? (hC k hk), hm'⟩
  · obtain ⟨k, hk, rfl, rfl⟩ := cell i l hl
    rw [genk k g hk hg, nod _ p hp, nod _ p' hp']
    exact left_pos P he hk q hq
  · obtain ⟨k, hk, rfl, rfl⟩ := cell i l hl
    obtain ⟨j, hj, rfl⟩ := gmem w hw
    rw [genk k g hk hg, nod _ p hp, X_d2 he, X_d2 he]
    have := near_place P hk hm hj
    linarith
  · intro i j g w l m hij hg hw hl hm hno
    obtain ⟨a, ha, rfl, rfl⟩ := cell i l hl
    obtain ⟨b, hb, rfl, rfl⟩ := cell j m hm
    rw [genk a g ha hg, genk b w hb hw] at hno
    have ne : a ≠ b := fun q => hij (by rw [q])
    have btw : ∀ x y z, x < y → y < z → z < ps.length → ((a = x ∧ b = z) ∨ (a = z ∧ b = x)) → False := fun x y z hxy hyz hz hc => by
      have i1 := P.incr x y hxy (by omega)
      have i2 := P.incr y z hyz hz
      have d : ∀ u v, d2 (X o e (t u) 0) (X o e (t v) 0) = (t u - t v) ^ 2 := fun u v => by rw [X_d2 he]; ring
      have nx : ∀ u v, t u ≠ t v → X o e (t u) 0 ≠ X o e (t v) 0 := fun u v hne q => by
        have := d u v
        rw [q] at this
        have z : d2 (X o e (t v) 0) (X o e (t v) 0) = 0 := by simp only [d2]; ring
        rw [z] at this
        have := pow_eq_zero_iff (two_ne_zero) |>.mp this.symm
        exact hne (by linarith)
      rcases hc with ⟨rfl, rfl⟩ | ⟨rfl, rfl⟩
      · refine hno (X o e (t y) 0) (List.mem_of_getElem? (F.gen y (by omega))) (nx _ _ (by linarith)) (nx _ _ (by linarith)) ?_
        rw [d, d, d]; constructor <;> nlinarith
      · refine hno (X o e (t y) 0) (List.mem_of_getElem? (F.gen y (by omega))) (nx _ _ (by linarith)) (nx _ _ (by linarith)) ?_
        rw [d, d, d]; constructor <;> nlinarith
    rcases lt_or_gt_of_ne ne with q | q
    · have : b = a + 1 := by
        by_contra hc
        exact btw a (a + 1) b (by omega) (by omega) hb (Or.inl ⟨rfl, rfl⟩)
      subst this
      obtain ⟨s1, s2⟩ := shared_place (n := ps.length) hb
      exact ⟨_, _, s1, s2⟩
    · have : a = b + 1 := by
        by_contra hc
        exact btw b (b + 1) a (by omega) (by omega) ha (Or.inr ⟨rfl, rfl⟩)
      subst this
      obtain ⟨s1, s2⟩ := shared_place (n := ps.length) ha
      exact ⟨_, _, s2, s1⟩
end
end Verif.Cells1d
