import Verif.Proofs.HullLoop
import Verif.Spec.Hull
/- C33: the convex hull in the plane. -/
namespace Verif.Geom
open Verif Verif.Mesh

theorem toInt_ok {t : ℝ} (h0 : 0 ≤ t) (h1 : ⌊t⌋ ≤ 2147483647) : toInt t = .ok ⌊t⌋ := by
  unfold toInt
  have : 0 ≤ ⌊t⌋ := Int.floor_nonneg.mpr h0
  dsimp only
  rw [if_pos h0, if_pos ⟨by omega, h1⟩]

theorem hash_arg {x l dx : ℝ} (hdx : 0 < dx) (h : l ≤ x) : 0 ≤ (x - l) / dx + 1 / 2 := by
  have : 0 ≤ (x - l) / dx := div_nonneg (by linarith) hdx.le
  linarith

/-- Two tagged cells that the fuzzy comparison treats exactly. -/
def Apart (a b : Tagged) : Prop := (a.1.x = b.1.x ∨ 1 < |a.1.x - b.1.x|) ∧ (a.1.y = b.1.y ∨ 1 < |a.1.y - b.1.y|)

theorem fuzzyLt_iff {a b : Tagged} (h : Apart a b) : fuzzyLt a b = true ↔ lexLt a.1 b.1 := by
  obtain ⟨hx, hy⟩ := h
  rw [lt_abs] at hx hy
  unfold fuzzyLt lexLt
  split
  · rename_i h; simp; omega
  · split
    · simp; omega
    · split
      · simp; omega
      · split
        · simp; omega
        · simp; omega

theorem mem_fuzzyInsert {e x : Tagged} : ∀ {l : List Tagged}, x ∈ fuzzyInsert e l → x = e ∨ x ∈ l
  | [], h => by simpa [fuzzyInsert] using h
  | y :: l, h => by
    unfold fuzzyInsert at h
    split at h
    · rcases List.mem_cons.mp h with rfl | h'
      · simp
      · rcases mem_fuzzyInsert h' with h'' | h'' <;> simp [h'']
    · split at h
      · simpa using h
      · simp [h]

theorem mem_fuzzyInsert' {e x : Tagged} : ∀ {l : List Tagged}, x ∈ l → x ∈ fuzzyInsert e l
  | y :: l, h => by
    unfold fuzzyInsert
    split
    · rcases List.mem_cons.mp h with rfl | h'
      · simp
      · exact List.mem_cons_of_mem _ (mem_fuzzyInsert' h')
    · split
      · simp [h]
      · exact h

theorem fuzzyInsert_new {e : Tagged} : ∀ {l : List Tagged}, (∀ x ∈ l, Apart x e) → ∃ x ∈ fuzzyInsert e l, x.1 = e.1
  | [], _ => ⟨e, by simp [fuzzyInsert], rfl⟩
  | y :: l, h => by
    have hy := h y (by simp)
    have hy' : Apart e y := by
      obtain ⟨h1, h2⟩ := hy
      rw [abs_sub_comm] at h1 h2
      exact ⟨h1.imp_left Eq.symm, h2.imp_left Eq.symm⟩
    unfold fuzzyInsert
    split
    · obtain ⟨x, hx, h'⟩ := fuzzyInsert_new (fun x hx => h x (List.mem_cons_of_mem _ hx))
      exact ⟨x, List.mem_cons_of_mem _ hx, h'⟩
    · rename_i h1
      split
      · exact ⟨e, by simp, rfl⟩
      · rename_i h2
        rw [fuzzyLt_iff hy] at h1
        rw [fuzzyLt_iff hy'] at h2
        refine ⟨y, by simp, ?_⟩
        exact lexLe_antisymm ((lex_cases e.1 y.1).resolve_right h2) ((lex_cases y.1 e.1).resolve_right h1)

theorem fuzzyInsert_inc {e : Tagged} : ∀ {l : List Tagged}, (∀ x ∈ l, Apart x e) → (l.Pairwise fun a b => lexLt a.1 b.1) → (fuzzyInsert e l).Pairwise fun a b => lexLt a.1 b.1
  | [], _, _ => by simp [fuzzyInsert]
  | y :: l, h, hp => by
    have hy := h y (by simp)
    have hy' : Apart e y := by
      obtain ⟨h1, h2⟩ := hy
      rw [abs_sub_comm] at h1 h2
      exact ⟨h1.imp_left Eq.symm, h2.imp_left Eq.symm⟩
    obtain ⟨hp1, hp2⟩ := List.pairwise_cons.mp hp
    unfold fuzzyInsert
    split
    · rename_i h1
      rw [fuzzyLt_iff hy] at h1
      refine List.pairwise_cons.mpr ⟨fun x hx => ?_, fuzzyInsert_inc (fun x hx => h x (List.mem_cons_of_mem _ hx)) hp2⟩
      rcases mem_fuzzyInsert hx with rfl | hx
      · exact h1
      · exact hp1 x hx
    · split
      · rename_i h2
        rw [fuzzyLt_iff hy'] at h2
        refine List.pairwise_cons.mpr ⟨fun x hx => ?_, hp⟩
        rcases List.mem_cons.mp hx with rfl | hx
        · exact h2
        · exact h2.trans (hp1 x hx)
      · exact hp

theorem tagSort_inc : ∀ {l : List Tagged}, (l.Pairwise fun a b => lexLt a.1 b.1) → tagSort l = l
  | [], _ => rfl
  | [e], _ => rfl
  | e :: x :: l, h => by
    obtain ⟨h1, h2⟩ := List.pairwise_cons.mp h
    rw [tagSort, tagSort_inc h2, tagInsert, if_pos]
    have hx := h1 x (by simp)
    unfold lexLt at hx
    unfold tagLt
    rcases hx with hx | ⟨hx1, hx2⟩
    · simp [hx]
    · simp [hx1, hx2]

/-- What hashing all the points gives. -/
theorem hashPoints_spec {low : V2 ℝ} {dx : ℝ} (hdx : 0 < dx) {all : List (V2 ℝ)} (hr : FitsGrid low dx all) (hsp : Spread low dx all) :
    ∀ {ps done : List (V2 ℝ)} {set : List Tagged}, all = done ++ ps →
    (set.Pairwise fun a b => lexLt a.1 b.1) → (∀ e ∈ set, ∃ p, all[e.2]? = some p ∧ e.1 = cell low dx p) → (∀ p ∈ done, ∃ e ∈ set, e.1 = cell low dx p) →
    ∃ S, hashPoints low dx ps done.length set = .ok S ∧ (S.Pairwise fun a b => lexLt a.1 b.1) ∧ (∀ e ∈ S, ∃ p, all[e.2]? = some p ∧ e.1 = cell low dx p) ∧
      (∀ p ∈ all, ∃ e ∈ S, e.1 = cell low dx p)
  | [], done, set, hall, h1, h2, h3 => by
    rw [List.append_nil] at hall
    subst hall
    exact ⟨set, rfl, h1, h2, h3⟩
  | p :: ps, done, set, hall, h1, h2, h3 => by
    have hp : p ∈ all := by rw [hall]; simp
    obtain ⟨r1, r2, r3, r4⟩ := hr p hp
    simp only [hashPoints]
    rw [toInt_ok (hash_arg hdx r1) r3, Res.ok_bind, toInt_ok (hash_arg hdx r2) r4, Res.ok_bind]
    have hlen : done.length + 1 = (done ++ [p]).length := by simp
    have hgp : all[done.length]? = some p := by rw [hall]; simp
    have hap : ∀ x ∈ set, Apart x (cell low dx p, done.length) := by
      intro x hx
      obtain ⟨q, hq, e⟩ := h2 x hx
      have := hsp q (List.mem_of_getElem? hq) p hp
      unfold Apart
      rw [e]
      exact this
    have ecell : (⟨⌊(p.x - low.x) / dx + 1 / 2⌋, ⌊(p.y - low.y) / dx + 1 / 2⌋⟩ : V2 Int) = cell low dx p := rfl
    rw [ecell, hlen]
    refine hashPoints_spec hdx hr hsp (by rw [hall]; simp) (fuzzyInsert_inc hap h1) ?_ ?_
    · intro e he
      rcases mem_fuzzyInsert he with rfl | he
      · exact ⟨p, hgp, rfl⟩
      · exact h2 e he
    · intro q hq
      rcases List.mem_append.mp hq with hq | hq
      · obtain ⟨e, he, h⟩ := h3 q hq
        exact ⟨e, mem_fuzzyInsert' he, h⟩
      · rw [List.mem_singleton.mp hq]
        exact fuzzyInsert_new hap

theorem firstFar_spec {p0 pj : V2 ℝ} {dx : ℝ} {rest : List (V2 ℝ)} (hj : dx ≤ dist2 p0 pj) : ∀ {near : List (V2 ℝ)} {j : Nat}, (∀ p ∈ near, dist2 p0 p < dx) →
    firstFar p0 dx (near ++ pj :: rest) j = j + near.length
  | [], j, _ => by
    have e : distance2 p0 pj = dist2 p0 pj := by simp only [distance2, dist2, sq2, sq]
    rw [List.nil_append, firstFar, e, if_neg (not_lt.mpr hj)]; rfl
  | p :: near, j, h => by
    have e : distance2 p0 p = dist2 p0 p := by simp only [distance2, dist2, sq2, sq]
    rw [List.cons_append, firstFar, e, if_pos (h p (by simp)), firstFar_spec hj fun q hq => h q (List.mem_cons_of_mem _ hq)]
    simp; omega

theorem area_snapped {low : V2 ℝ} {dx : ℝ} (a b c : V2 ℝ) :
    area2 (snapped low dx a) (snapped low dx b) (snapped low dx c) = dx ^ 2 * ((ar (cell low dx a) (cell low dx b) (cell low dx c) : Int) : ℝ) := by
  simp only [area2, snapped, ar]; push_cast; ring

theorem pairs_map {α β : Type} (f : α → β) (l : List α) : pairs (l.map f) = (pairs l).map fun e => (f e.1, f e.2) := by
  unfold pairs
  rw [← List.map_tail, List.zip_map]
  rfl

theorem collinear_of_line {f l a b c : V2 Int} (h : lexLt f l) (ha : ar f l a = 0) (hb : ar f l b = 0) (hc : ar f l c = 0) : ar a b c = 0 := by
  unfold lexLt at h
  unfold ar at *
  by_cases hx : l.x - f.x = 0
  · have hy : l.y - f.y ≠ 0 := by omega
    rw [hx] at ha hb hc
    have ha' : a.x - f.x = 0 := by
      have : (l.y - f.y) * (a.x - f.x) = 0 := by linarith
      exact (mul_eq_zero.mp this).resolve_left hy
    have hb' : b.x - f.x = 0 := by
      have : (l.y - f.y) * (b.x - f.x) = 0 := by linarith
      exact (mul_eq_zero.mp this).resolve_left hy
    have hc' : c.x - f.x = 0 := by
      have : (l.y - f.y) * (c.x - f.x) = 0 := by linarith
      exact (mul_eq_zero.mp this).resolve_left hy
    have e1 : b.x - a.x = 0 := by omega
    have e2 : c.x - a.x = 0 := by omega
    rw [e1, e2]; ring
  · have : (l.x - f.x) * ((b.x - a.x) * (c.y - a.y) - (b.y - a.y) * (c.x - a.x)) = 0 := by
      linear_combination (b.x - a.x) * (hc - ha) - (c.x - a.x) * (hb - ha)
    exact (mul_eq_zero.mp this).resolve_left hx

/-- The two branches after hashing. -/
theorem hull_reduce (dbg : Bool) {pts : List (V2 ℝ)} {low : V2 ℝ} {dx : ℝ} (ht : TwoDim dx pts) {S : List Tagged} (hS : hashPoints low dx pts 0 [] = .ok S)
    (hs : tagSort S = S) : convexHull2 dbg pts low dx = (Res.assert dbg (4 ≤ (hullLoop S).length) >>= fun _ => .ok ⟨hullFacets (hullLoop S), []⟩) := by
  obtain ⟨p0, near, pj, rest, rfl, hrest, hnear, hfar, p, hp, hnc⟩ := ht
  obtain ⟨p1, p2, r, hl⟩ : ∃ p1 p2 r, near ++ pj :: rest = p1 :: p2 :: r := by
    match near, rest, hrest with
    | [], y :: rest, _ => exact ⟨pj, y, rest, rfl⟩
    | [x], rest, _ => exact ⟨x, pj, rest, rfl⟩
    | x :: y :: near, rest, _ => exact ⟨x, y, near ++ pj :: rest, rfl⟩
  have hlen : near.length + 1 + rest.length = r.length + 2 := by
    have := congrArg List.length hl; simp at this; omega
  have hrl : 0 < rest.length := List.length_pos_of_ne_nil hrest
  unfold convexHull2
  rw [Res.assert_true dbg (by simp), Res.ok_bind]
  have hff : firstFar p0 dx (p1 :: p2 :: r) 1 = 1 + near.length := by rw [← hl]; exact firstFar_spec hfar hnear
  have hpj : (p0 :: p1 :: p2 :: r).getD (1 + near.length) p0 = pj := by
    rw [← hl, Nat.add_comm]; simp [List.getD]
  rw [hl] at hS hp ⊢
  dsimp only
  rw [hff, hpj]
  rw [if_neg (by simp; omega), if_neg (by simp; omega), hS, Res.ok_bind, hs, if_neg (fun h => hnc (h p (by simpa using hp)))]
  rfl

/-- The hull of a point set in general position for the grid: the facets are a closed loop over input points that turns strictly left everywhere when the points are taken at their
grid positions, and no input point is to the right of a facet. -/
theorem C33_hull_partial (dbg : Bool) {pts : List (V2 ℝ)} {low : V2 ℝ} {dx : ℝ} (hdx : 0 < dx) (hr : FitsGrid low dx pts) (hsp : Spread low dx pts) (ht : TwoDim dx pts)
    (hs : SnappedTwoDim low dx pts) :
    ∃ ids : List Nat, convexHull2 dbg pts low dx = .ok (loopPLC ids) ∧ (∀ i ∈ ids, i < pts.length) ∧
      ConvexCCW (ids.map fun i => snapped low dx (pts.getD i 0)) ∧ ∀ p ∈ pts, InPoly (ids.map fun i => snapped low dx (pts.getD i 0)) (snapped low dx p) := by
  obtain ⟨S, hS, hinc, hmem, hall⟩ := hashPoints_spec hdx hr hsp (ps := pts) (done := []) (set := []) rfl (by simp) (by simp) (by simp)
  have hd2 : 0 < dx ^ 2 := by positivity
  obtain ⟨a, ha, b, hb, c, hc, habc⟩ := hs
  have h2 : 2 ≤ S.length := by
    by_contra hlt
    obtain ⟨ea, hea, e1⟩ := hall a ha
    obtain ⟨eb, heb, e2⟩ := hall b hb
    apply habc
    have : ea = eb := by
      match S, hlt, hea, heb with
      | [x], _, hea, heb => rw [List.mem_singleton.mp hea, List.mem_singleton.mp heb]
      | _ :: _ :: _, hlt, _, _ => simp at hlt
    rw [area_snapped, ← e1, ← e2, this]
    have : ar eb.1 eb.1 (cell low dx c) = 0 := by unfold ar; ring
    rw [this]; simp
  obtain ⟨f, l, Lm, Um, hfl, hres, hP, hturn, hedge⟩ := hullLoop_spec hinc h2
  have hpos : ∀ e ∈ S, cell low dx (pts.getD e.2 0) = e.1 ∧ e.2 < pts.length := by
    intro e he
    obtain ⟨p, hp, h⟩ := hmem e he
    obtain ⟨hlt, h'⟩ := List.getElem?_eq_some_iff.mp hp
    refine ⟨?_, hlt⟩
    rw [h]
    simp [List.getD, hp]
  -- three points at least
  have hlen : 4 ≤ (hullLoop S).length := by
    rw [hres]
    by_contra hlt
    have h0 : Lm = [] ∧ Um = [] := by
      simp at hlt
      constructor <;> apply List.eq_nil_of_length_eq_zero <;> omega
    obtain ⟨rfl, rfl⟩ := h0
    have z : ∀ q ∈ S, ar f.1 l.1 q.1 = 0 := by
      intro q hq
      have h1 := hedge (f, l) (by simp [pairs]) q hq
      have h2 := hedge (l, f) (by simp [pairs]) q hq
      have : ar l.1 f.1 q.1 = -ar f.1 l.1 q.1 := ar_swap _ _ _
      simp only at h1 h2
      omega
    obtain ⟨ea, hea, e1⟩ := hall a ha
    obtain ⟨eb, heb, e2⟩ := hall b hb
    obtain ⟨ec, hec, e3⟩ := hall c hc
    have za := z ea hea
    have zb := z eb heb
    have zc := z ec hec
    apply habc
    rw [area_snapped, ← e1, ← e2, ← e3]
    have hz : ar ea.1 eb.1 ec.1 = 0 := collinear_of_line hfl za zb zc
    rw [hz]; simp
  refine ⟨(f :: Lm ++ (l :: Um)).map fun e => e.2, ?_, ?_, ?_, ?_⟩
  · rw [hull_reduce dbg ht hS (tagSort_inc hinc), Res.assert_true dbg hlen, Res.ok_bind, hres]
    have e : (f :: Lm ++ l :: Um ++ [f]) = f :: ((Lm ++ l :: Um) ++ [f]) := by simp
    have e' : (f :: Lm) ++ ((l :: Um) ++ [f]) = f :: ((Lm ++ l :: Um) ++ [f]) := by simp
    rw [e']
    unfold loopPLC hullFacets
    congr 2
    rw [List.cons_append, List.map_cons, dirSides_pairs]
    have : f.2 :: (List.map (fun e : Tagged => e.2) (Lm ++ l :: Um) ++ [f.2]) = (f :: ((Lm ++ l :: Um) ++ [f])).map fun e => e.2 := by simp
    rw [this, pairs_map, List.map_map, pairs]
    rw [List.zip, List.map_zipWith]
    rfl
  · intro i hi
    obtain ⟨e, he, rfl⟩ := List.mem_map.mp hi
    exact (hpos e (hP e he)).2
  · rw [List.map_map]
    refine ⟨?_, ?_⟩
    · rw [hres] at hlen
      simp at hlen ⊢
      omega
    · intro x y z hsub
      obtain ⟨l', hl', e⟩ := List.sublist_map_iff.mp hsub
      match l', e, hl' with
      | [u, v, w], e, hl' =>
        simp only [List.map_cons, List.map_nil, Function.comp_apply] at e
        injection e with e1 e; injection e with e2 e; injection e with e3 _
        rw [e1, e2, e3, area_snapped, (hpos u (hP u (hl'.subset (by simp)))).1, (hpos v (hP v (hl'.subset (by simp)))).1, (hpos w (hP w (hl'.subset (by simp)))).1]
        exact mul_pos hd2 (by exact_mod_cast hturn u v w hl')
  · intro p hp
    rw [List.map_map]
    rintro ⟨x, y⟩ hxy
    obtain ⟨e, he, hep⟩ := hall p hp
    have hd : dirSides (List.map ((fun i => snapped low dx (pts.getD i 0)) ∘ fun e : Tagged => e.2) (f :: Lm ++ l :: Um)) =
        (pairs ((f :: Lm) ++ ((l :: Um) ++ [f]))).map fun e => (snapped low dx (pts.getD e.1.2 0), snapped low dx (pts.getD e.2.2 0)) := by
      rw [List.cons_append, List.map_cons, dirSides_pairs]
      have : (f :: Lm) ++ ((l :: Um) ++ [f]) = f :: ((Lm ++ l :: Um) ++ [f]) := by simp
      rw [this, ← pairs_map (fun e : Tagged => snapped low dx (pts.getD e.2 0))]
      simp only [List.map_append, List.map_cons, List.map_nil]
      rfl
    rw [hd] at hxy
    obtain ⟨⟨u, v⟩, huv, e0⟩ := List.mem_map.mp hxy
    injection e0 with e1 e2
    have hu : u ∈ S ∧ v ∈ S := by
      obtain ⟨X, Y, hXY⟩ := mem_pairs huv
      have : ∀ w ∈ (f :: Lm) ++ ((l :: Um) ++ [f]), w ∈ S := by
        intro w hw
        apply hP
        simp only [List.cons_append, List.mem_cons, List.mem_append, List.not_mem_nil, or_false] at hw ⊢
        tauto
      rw [hXY] at this
      exact ⟨this u (by simp), this v (by simp)⟩
    simp only
    rw [← e1, ← e2, area_snapped, (hpos u hu.1).1, (hpos v hu.2).1, ← hep]
    exact mul_nonneg hd2.le (by exact_mod_cast hedge (u, v) huv e he)

/-- A point moves by at most half a grid spacing in each coordinate. -/
theorem C33_snap {low : V2 ℝ} {dx : ℝ} (hdx : 0 < dx) (p : V2 ℝ) : |(snapped low dx p).x - p.x| ≤ dx / 2 ∧ |(snapped low dx p).y - p.y| ≤ dx / 2 := by
  have key : ∀ x l : ℝ, |l + dx * ((⌊(x - l) / dx + 1 / 2⌋ : Int) : ℝ) - x| ≤ dx / 2 := by
    intro x l
    have h1 := Int.floor_le ((x - l) / dx + 1 / 2)
    have h2 := Int.lt_floor_add_one ((x - l) / dx + 1 / 2)
    have e : (x - l) / dx * dx = x - l := div_mul_cancel₀ _ hdx.ne'
    rw [abs_le]
    constructor <;> nlinarith
  exact ⟨key _ _, key _ _⟩

/-- For points on the grid the statement is about the input positions themselves. -/
theorem C33_grid_partial (dbg : Bool) {pts : List (V2 ℝ)} {low : V2 ℝ} {dx : ℝ} (hdx : 0 < dx) (hr : FitsGrid low dx pts) (hsp : Spread low dx pts) (ht : TwoDim dx pts)
    (hg : ∀ p ∈ pts, ∃ i j : Int, p = ⟨low.x + dx * (i : ℝ), low.y + dx * (j : ℝ)⟩) (hs : ∃ a ∈ pts, ∃ b ∈ pts, ∃ c ∈ pts, area2 a b c ≠ 0) :
    ∃ ids : List Nat, convexHull2 dbg pts low dx = .ok (loopPLC ids) ∧ (∀ i ∈ ids, i < pts.length) ∧
      ConvexCCW (ids.map fun i => pts.getD i 0) ∧ ∀ p ∈ pts, InPoly (ids.map fun i => pts.getD i 0) p := by
  have hsn : ∀ p ∈ pts, snapped low dx p = p := by
    intro p hp
    obtain ⟨i, j, rfl⟩ := hg p hp
    have key : ∀ (l : ℝ) (i : Int), ⌊(l + dx * (i : ℝ) - l) / dx + 1 / 2⌋ = i := by
      intro l i
      have : (l + dx * (i : ℝ) - l) / dx = i := by field_simp; ring
      rw [this, Int.floor_intCast_add]
      norm_num
    simp only [snapped, cell, key]
  have hs' : SnappedTwoDim low dx pts := by
    obtain ⟨a, ha, b, hb, c, hc, h⟩ := hs
    exact ⟨a, ha, b, hb, c, hc, by rw [hsn a ha, hsn b hb, hsn c hc]; exact h⟩
  obtain ⟨ids, h1, h2, h3, h4⟩ := C33_hull_partial dbg hdx hr hsp ht hs'
  have e : (ids.map fun i => snapped low dx (pts.getD i 0)) = ids.map fun i => pts.getD i 0 := by
    apply List.map_congr_left
    intro i hi
    apply hsn
    have := h2 i hi
    simp [List.getD, this]
  rw [e] at h3 h4
  exact ⟨ids, h1, h2, h3, fun p hp => by have := h4 p hp; rwa [hsn p hp] at this⟩

/-- If the library's test finds every point collinear with the first and the second distinct one, the result is one facet between the first and the last grid cell in
lexicographic order. -/
theorem C33_line (dbg : Bool) {pts : List (V2 ℝ)} {low : V2 ℝ} {dx : ℝ} (hdx : 0 < dx) (hr : FitsGrid low dx pts) (hsp : Spread low dx pts)
    {p0 pj : V2 ℝ} {near rest : List (V2 ℝ)} (hpts : pts = p0 :: (near ++ pj :: rest)) (hrest : rest ≠ []) (hnear : ∀ p ∈ near, dist2 p0 p < dx) (hfar : dx ≤ dist2 p0 pj)
    (hcol : ∀ p ∈ pts.drop 2, collinear2 p0 pj p dx) :
    ∃ i j : Nat, convexHull2 dbg pts low dx = .ok ⟨[[(i : Int), (j : Int)]], []⟩ ∧ i < pts.length ∧ j < pts.length ∧
      ∀ p ∈ pts, lexLe (cell low dx (pts.getD i 0)) (cell low dx p) ∧ lexLe (cell low dx p) (cell low dx (pts.getD j 0)) := by
  obtain ⟨S, hS, hinc, hmem, hall⟩ := hashPoints_spec hdx hr hsp (ps := pts) (done := []) (set := []) rfl (by simp) (by simp) (by simp)
  have hpos : ∀ e ∈ S, cell low dx (pts.getD e.2 0) = e.1 ∧ e.2 < pts.length := by
    intro e he
    obtain ⟨p, hp, h⟩ := hmem e he
    obtain ⟨hlt, h'⟩ := List.getElem?_eq_some_iff.mp hp
    refine ⟨?_, hlt⟩
    rw [h]
    simp [List.getD, hp]
  have hSne : S ≠ [] := by
    rintro rfl
    obtain ⟨e, he, _⟩ := hall p0 (by rw [hpts]; simp)
    simp at he
  obtain ⟨a, ha⟩ : ∃ a, S.head? = some a := by
    cases S with
    | nil => exact absurd rfl hSne
    | cons a S => exact ⟨a, rfl⟩
  obtain ⟨b, hb⟩ : ∃ b, S.getLast? = some b := ⟨S.getLast hSne, List.getLast?_eq_some_getLast hSne⟩
  have haS : a ∈ S := List.mem_of_mem_head? ha
  have hbS : b ∈ S := List.mem_of_getLast? hb
  refine ⟨a.2, b.2, ?_, (hpos a haS).2, (hpos b hbS).2, ?_⟩
  · subst hpts
    obtain ⟨p1, p2, r, hl⟩ : ∃ p1 p2 r, near ++ pj :: rest = p1 :: p2 :: r := by
      match near, rest, hrest with
      | [], y :: rest, _ => exact ⟨pj, y, rest, rfl⟩
      | [x], rest, _ => exact ⟨x, pj, rest, rfl⟩
      | x :: y :: near, rest, _ => exact ⟨x, y, near ++ pj :: rest, rfl⟩
    have hlen : near.length + 1 + rest.length = r.length + 2 := by
      have := congrArg List.length hl; simp at this; omega
    have hrl : 0 < rest.length := List.length_pos_of_ne_nil hrest
    unfold convexHull2
    rw [Res.assert_true dbg (by simp), Res.ok_bind]
    have hff : firstFar p0 dx (p1 :: p2 :: r) 1 = 1 + near.length := by rw [← hl]; exact firstFar_spec hfar hnear
    have hpj : (p0 :: p1 :: p2 :: r).getD (1 + near.length) p0 = pj := by
      rw [← hl, Nat.add_comm]; simp [List.getD]
    have hS' : hashPoints low dx (p0 :: (near ++ pj :: rest)) 0 [] = .ok S := hS
    rw [hl] at hS' hcol ⊢
    dsimp only
    rw [hff, hpj]
    rw [if_neg (by simp; omega), if_neg (by simp; omega), hS', Res.ok_bind, tagSort_inc hinc, if_pos (fun p hp => hcol p (by simpa using hp)), ha, hb]
  · intro p hp
    obtain ⟨e, he, hep⟩ := hall p hp
    rw [(hpos a haS).1, (hpos b hbS).1, ← hep]
    constructor
    · cases S with
      | nil => exact absurd rfl hSne
      | cons x S =>
        simp at ha
        subst ha
        rcases List.mem_cons.mp he with rfl | he
        · exact lexLe_refl _
        · exact ((List.pairwise_cons.mp hinc).1 e he).le
    · rcases S.eq_nil_or_concat with rfl | ⟨S', x, rfl⟩
      · exact absurd rfl hSne
      · rw [List.concat_eq_append] at hb he hinc
        rw [List.getLast?_concat] at hb
        injection hb with hb
        subst hb
        rcases List.mem_append.mp he with he | he
        · exact ((List.pairwise_append.mp hinc).2.2 e he x (by simp)).le
        · rw [List.mem_singleton.mp he]; exact lexLe_refl _

/-- With a spacing above one length unit the library's collinearity test accepts everything, so no point set has a two-dimensional hull. -/
theorem C33_coarse_fails (dbg : Bool) {pts : List (V2 ℝ)} {low : V2 ℝ} {dx : ℝ} (hdx : 1 < dx) (hr : FitsGrid low dx pts) (hsp : Spread low dx pts)
    {p0 pj : V2 ℝ} {near rest : List (V2 ℝ)} (hpts : pts = p0 :: (near ++ pj :: rest)) (hrest : rest ≠ []) (hnear : ∀ p ∈ near, dist2 p0 p < dx) (hfar : dx ≤ dist2 p0 pj) :
    ∃ i j : Nat, convexHull2 dbg pts low dx = .ok ⟨[[(i : Int), (j : Int)]], []⟩ := by
  obtain ⟨i, j, h, _⟩ := C33_line dbg (by linarith) hr hsp hpts hrest hnear hfar (by
    intro p _
    by_cases h1 : dot2 (pj - p0) (pj - p0) < dx
    · exact Or.inl h1
    by_cases h2 : dot2 (p - p0) (p - p0) < dx
    · exact Or.inr (Or.inl h2)
    refine Or.inr (Or.inr ?_)
    have key : ∀ u v : V2 ℝ, 0 < dot2 u u → 0 < dot2 v v → |dot2 (u.div (Real.sqrt (dot2 u u))) (v.div (Real.sqrt (dot2 v v)))| ≤ 1 := by
      intro u v hu hv
      have su := Real.sq_sqrt hu.le
      have sv := Real.sq_sqrt hv.le
      have pu := Real.sqrt_pos.mpr hu
      have pv := Real.sqrt_pos.mpr hv
      rw [← sq_le_one_iff_abs_le_one]
      have e : dot2 (u.div (Real.sqrt (dot2 u u))) (v.div (Real.sqrt (dot2 v v))) = dot2 u v / (Real.sqrt (dot2 u u) * Real.sqrt (dot2 v v)) := by
        simp only [dot2, V2.div]; field_simp
      rw [e, div_pow, mul_pow, su, sv, div_le_one (mul_pos hu hv)]
      simp only [dot2]
      nlinarith [sq_nonneg (u.x * v.y - u.y * v.x)]
    have h1' : 0 < dot2 (pj - p0) (pj - p0) := by linarith
    have h2' : 0 < dot2 (p - p0) (p - p0) := by linarith
    have hk := key _ _ h1' h2'
    rw [abs_lt]
    have := abs_nonneg (dot2 ((pj - p0).div (Real.sqrt (dot2 (pj - p0) (pj - p0)))) ((p - p0).div (Real.sqrt (dot2 (p - p0) (p - p0)))))
    constructor <;> linarith)
  exact ⟨i, j, h⟩

/-- Three cells that the comparator of the set orders in a circle: what the set does with them is undefined. -/
theorem C33_order_fails : ∃ a b c : V2 Int, ∀ i j k : Nat, fuzzyLt (a, i) (b, j) = true ∧ fuzzyLt (b, j) (c, k) = true ∧ fuzzyLt (c, k) (a, i) = true :=
  ⟨⟨0, 6⟩, ⟨2, 2⟩, ⟨1, 4⟩, fun _ _ _ => by simp [fuzzyLt]⟩

/-- A square with a point inside. -/
def squarePts : List (V2 ℝ) := [⟨0, 0⟩, ⟨4, 0⟩, ⟨4, 4⟩, ⟨0, 4⟩, ⟨2, 2⟩]
theorem square_cell (p : V2 ℝ) (i j : Int) (hx : p.x = i) (hy : p.y = j) : cell ⟨0, 0⟩ (1 / 2) p = ⟨2 * i, 2 * j⟩ := by
  have key : ∀ k : Int, ⌊((k : ℝ) - 0) / (1 / 2) + 1 / 2⌋ = 2 * k := by
    intro k
    have : ((k : ℝ) - 0) / (1 / 2) + 1 / 2 = ((2 * k : Int) : ℝ) + 1 / 2 := by push_cast; ring
    rw [this, Int.floor_intCast_add]
    norm_num
  simp only [cell, hx, hy, key]
theorem square_cells : ∀ p ∈ squarePts, ∃ i j : Int, p.x = i ∧ p.y = j ∧ (i = 0 ∨ i = 2 ∨ i = 4) ∧ (j = 0 ∨ j = 2 ∨ j = 4) := by
  intro p hp
  simp only [squarePts, List.mem_cons, List.not_mem_nil, or_false] at hp
  rcases hp with rfl | rfl | rfl | rfl | rfl
  · exact ⟨0, 0, by norm_num, by norm_num, by simp, by simp⟩
  · exact ⟨4, 0, by norm_num, by norm_num, by simp, by simp⟩
  · exact ⟨4, 4, by norm_num, by norm_num, by simp, by simp⟩
  · exact ⟨0, 4, by norm_num, by norm_num, by simp, by simp⟩
  · exact ⟨2, 2, by norm_num, by norm_num, by simp, by simp⟩
example : ∃ ids : List Nat, convexHull2 true squarePts ⟨0, 0⟩ (1 / 2) = .ok (loopPLC ids) ∧ (∀ i ∈ ids, i < squarePts.length) ∧
      ConvexCCW (ids.map fun i => squarePts.getD i 0) ∧ ∀ p ∈ squarePts, InPoly (ids.map fun i => squarePts.getD i 0) p := by
  refine C33_grid_partial true (by norm_num) ?_ ?_ ?_ ?_ ?_
  · intro p hp
    obtain ⟨i, j, hx, hy, hi, hj⟩ := square_cells p hp
    rw [square_cell p i j hx hy]
    rw [hx, hy]
    refine ⟨by simp only; exact_mod_cast (by omega : (0 : Int) ≤ i), by simp only; exact_mod_cast (by omega : (0 : Int) ≤ j), by simp only; omega, by simp only; omega⟩
  · intro p hp q hq
    obtain ⟨i, j, hx, hy, hi, hj⟩ := square_cells p hp
    obtain ⟨i', j', hx', hy', hi', hj'⟩ := square_cells q hq
    rw [square_cell p i j hx hy, square_cell q i' j' hx' hy', lt_abs, lt_abs]
    simp only
    omega
  · refine ⟨⟨0, 0⟩, [], ⟨4, 0⟩, [⟨4, 4⟩, ⟨0, 4⟩, ⟨2, 2⟩], rfl, by simp, by simp, ?_, ⟨0, 4⟩, by simp [squarePts], ?_⟩
    · have : dist2 (⟨0, 0⟩ : V2 ℝ) ⟨4, 0⟩ = 4 := by
        simp only [dist2, sq2]
        rw [show ((0 : ℝ) - 4) ^ 2 + (0 - 0) ^ 2 = 4 ^ 2 by norm_num, Real.sqrt_sq (by norm_num)]
      rw [this]; norm_num
    · unfold collinear2; norm_num [dot2, V2.div]
  · intro p hp
    obtain ⟨i, j, hx, hy, _, _⟩ := square_cells p hp
    exact ⟨2 * i, 2 * j, by ext <;> simp [hx, hy]⟩
  · exact ⟨⟨0, 0⟩, by simp [squarePts], ⟨4, 0⟩, by simp [squarePts], ⟨4, 4⟩, by simp [squarePts], by norm_num [area2]⟩

/-- A large triangle and a spacing of two units. -/
def bigTri : List (V2 ℝ) := [⟨0, 0⟩, ⟨100, 0⟩, ⟨0, 100⟩]
theorem big_cell (p : V2 ℝ) (i j : Int) (hx : p.x = 2 * (i : ℝ)) (hy : p.y = 2 * (j : ℝ)) : cell ⟨0, 0⟩ 2 p = ⟨i, j⟩ := by
  have key : ∀ k : Int, ⌊(2 * (k : ℝ) - 0) / 2 + 1 / 2⌋ = k := by
    intro k
    have : (2 * (k : ℝ) - 0) / 2 + 1 / 2 = ((k : Int) : ℝ) + 1 / 2 := by ring
    rw [this, Int.floor_intCast_add]
    norm_num
  simp only [cell, hx, hy, key]
theorem big_cells : ∀ p ∈ bigTri, ∃ i j : Int, p.x = 2 * (i : ℝ) ∧ p.y = 2 * (j : ℝ) ∧ (i = 0 ∨ i = 50) ∧ (j = 0 ∨ j = 50) := by
  intro p hp
  simp only [bigTri, List.mem_cons, List.not_mem_nil, or_false] at hp
  rcases hp with rfl | rfl | rfl
  · exact ⟨0, 0, by norm_num, by norm_num, by simp, by simp⟩
  · exact ⟨50, 0, by norm_num, by norm_num, by simp, by simp⟩
  · exact ⟨0, 50, by norm_num, by norm_num, by simp, by simp⟩
example : (∃ i j : Nat, convexHull2 true bigTri ⟨0, 0⟩ 2 = .ok ⟨[[(i : Int), (j : Int)]], []⟩) ∧ area2 (⟨0, 0⟩ : V2 ℝ) ⟨100, 0⟩ ⟨0, 100⟩ = 10000 := by
  refine ⟨C33_coarse_fails true (by norm_num) ?_ ?_ (p0 := ⟨0, 0⟩) (near := []) (pj := ⟨100, 0⟩) (rest := [⟨0, 100⟩]) rfl (by simp) (by simp) ?_, by norm_num [area2]⟩
  · intro p hp
    obtain ⟨i, j, hx, hy, hi, hj⟩ := big_cells p hp
    rw [big_cell p i j hx hy, hx, hy]
    refine ⟨by simp only; exact_mod_cast (by omega : (0 : Int) ≤ 2 * i), by simp only; exact_mod_cast (by omega : (0 : Int) ≤ 2 * j), by simp only; omega, by simp only; omega⟩
  · intro p hp q hq
    obtain ⟨i, j, hx, hy, hi, hj⟩ := big_cells p hp
    obtain ⟨i', j', hx', hy', hi', hj'⟩ := big_cells q hq
    rw [big_cell p i j hx hy, big_cell q i' j' hx' hy', lt_abs, lt_abs]
    simp only
    omega
  · have : dist2 (⟨0, 0⟩ : V2 ℝ) ⟨100, 0⟩ = 100 := by
      simp only [dist2, sq2]
      rw [show ((0 : ℝ) - 100) ^ 2 + (0 - 0) ^ 2 = 100 ^ 2 by norm_num, Real.sqrt_sq (by norm_num)]
    rw [this]; norm_num
end Verif.Geom
