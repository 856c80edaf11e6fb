import Verif.Spec.Errors
import Verif.Props.CApi
/- C96: error handlers. C97: tessellator objects in C. -/
namespace Verif.Errors
open Verif Verif.Mesh

/-! ### Error handlers -/

/-- The state in which a handler is in force. -/
def InForce (s : St) : Who → Prop
  | .dflt => s.handler = none ∨ s.handler = some .dflt
  | .cpp h => s.handler = some (.cpp h)
  | .c h => s.handler = some .wrap ∧ s.cHandler = some h

/-- The state belongs to a history. -/
def Fits (past : List Op) (s : St) : Prop := InForce s (current past)

theorem current_error (past : List Op) (m : List Char) (st : Int) : current (past ++ [.error m st]) = current past := by
  simp [current, List.reverse_append]
theorem current_set (past : List Op) (h : Option Nat) : current (past ++ [.set h]) = match h with | some h => .cpp h | none => .dflt := by
  cases h <;> simp [current, List.reverse_append]
theorem current_setC (past : List Op) (h : Nat) : current (past ++ [.setC (some h)]) = .c h := by
  simp [current, List.reverse_append]

theorem error_fits {past : List Op} {s : St} (h : Fits past s) (msg : List Char) (st : Int) :
    ∃ s', error s msg st = .ok (s', current past, text (current past) msg, st) ∧ Fits (past ++ [.error msg st]) s' := by
  unfold Fits at h ⊢
  rw [current_error]
  cases hc : current past with
  | dflt =>
    rw [hc] at h
    refine ⟨{ s with handler := some .dflt }, ?_, Or.inr rfl⟩
    unfold error
    rcases h with q | q <;> rw [q] <;> rfl
  | cpp k =>
    rw [hc] at h
    refine ⟨{ s with handler := some (.cpp k) }, ?_, rfl⟩
    unfold error
    rw [show s.handler = some (.cpp k) from h]; rfl
  | c k =>
    rw [hc] at h
    obtain ⟨q1, q2⟩ := h
    refine ⟨{ s with handler := some .wrap }, ?_, rfl, q2⟩
    unfold error
    rw [q1]
    simp only [Option.getD_some, q2]
    rfl

/-- The calls still to come, after `past`. -/
def expectedFrom : List Op → List Op → List Ev
  | _, [] => []
  | past, .error msg st :: os => (current past, text (current past) msg, st) :: expectedFrom (past ++ [.error msg st]) os
  | past, o :: os => expectedFrom (past ++ [o]) os

theorem expectedFrom_eq : ∀ (ops past : List Op), expectedFrom past ops = (List.range ops.length).filterMap fun i => (ops[i]?).bind (due (past ++ ops.take i))
  | [], _ => rfl
  | o :: os, past => by
    rw [List.length_cons, List.range_succ_eq_map, List.filterMap_cons, List.filterMap_map]
    have ih := expectedFrom_eq os (past ++ [o])
    have e : ((fun i => ((o :: os)[i]?).bind (due (past ++ (o :: os).take i))) ∘ Nat.succ) = fun i => (os[i]?).bind (due (past ++ [o] ++ os.take i)) := by
      funext i
      simp [List.append_assoc]
    rw [e, ← ih]
    cases o with
    | error msg st => simp [expectedFrom, due]
    | set h => simp [expectedFrom, due]
    | setC h => simp [expectedFrom, due]

theorem run_fits (dbg : Bool) (ends : Who → Bool) : ∀ (ops past : List Op) (s : St), Fits past s → Op.setC none ∉ ops →
    run dbg ends ops s = .ok (upTo (fun e => final ends e.1) (expectedFrom past ops))
  | [], _, _, _, _ => rfl
  | .set h :: os, past, s, hf, hn => by
    refine run_fits dbg ends os (past ++ [.set h]) (setErrorHandler s h) ?_ (fun q => hn (List.mem_cons_of_mem _ q))
    unfold Fits
    rw [current_set]
    cases h with
    | none => exact Or.inl rfl
    | some k => exact rfl
  | .setC none :: os, past, s, hf, hn => absurd (List.mem_cons_self) hn
  | .setC (some k) :: os, past, s, hf, hn => by
    have := run_fits dbg ends os (past ++ [.setC (some k)]) { handler := some .wrap, cHandler := some k }
      (by unfold Fits; rw [current_setC]; exact ⟨rfl, rfl⟩) (fun q => hn (List.mem_cons_of_mem _ q))
    unfold run setC
    simp only [Res.bind_eq]
    rw [Res.assert_true dbg (by simp), Res.bind_ok]
    exact this
  | .error msg st :: os, past, s, hf, hn => by
    obtain ⟨s', e, hf'⟩ := error_fits hf msg st
    have ih := run_fits dbg ends os _ s' hf' (fun q => hn (List.mem_cons_of_mem _ q))
    unfold run expectedFrom upTo
    simp only [Res.bind_eq]
    rw [e, Res.bind_ok]
    dsimp only
    by_cases q : final ends (current past) = true
    · rw [if_pos q, if_pos (by simpa [final] using q)]; rfl
    · rw [if_neg q, if_neg (by simpa [final] using q), ih]; rfl

/-- C96: in every program, each error causes exactly one call, of the handler that was set last in C++ or C (the default handler if there is none), with its text and status; the program ends with the first call of a
handler that does not return, which the default one never does. -/
theorem C96_delivery (dbg : Bool) (ends : Who → Bool) {ops : List Op} (hn : Op.setC none ∉ ops) :
    run dbg ends ops {} = .ok (upTo (fun e => final ends e.1) (expected ops)) := by
  rw [run_fits dbg ends ops [] {} (Or.inl rfl) hn, expectedFrom_eq]
  rfl

/-- So if handlers return, every error is reported. -/
theorem C96_all (dbg : Bool) {ops : List Op} (hn : Op.setC none ∉ ops) (hd : ∀ e ∈ expected ops, e.1 ≠ .dflt) : run dbg (fun _ => false) ops {} = .ok (expected ops) := by
  rw [C96_delivery dbg _ hn]
  have : ∀ (l : List Ev), (∀ e ∈ l, e.1 ≠ Who.dflt) → upTo (fun e : Ev => final (fun _ => false) e.1) l = l := fun l => by
    induction l with
    | nil => intro _; rfl
    | cons x xs ih =>
      intro h
      unfold upTo
      rw [if_neg (by simpa [final] using h x List.mem_cons_self), ih fun e he => h e (List.mem_cons_of_mem _ he)]
  rw [this _ hd]

/-- A null pointer through the C interface: with assertions the program stops there, without them the next error follows the null pointer, unless a handler is set before. -/
theorem C96_null_fails (ends : Who → Bool) (s : St) (msg : List Char) (st : Int) (os : List Op) :
    run true ends (.setC none :: os) s = .abort ∧ run false ends (.setC none :: .error msg st :: os) s = .ub := by
  constructor <;> rfl

/-- `computeDelaunay` returns without a call of the handler exactly if there are triangles and all points were kept. Otherwise the handler is told, and the function returns all the same if the handler does; the copy
of the points is freed exactly if it returns. -/
theorem C96_delaunay (ends : Who → Bool) {past : List Op} {s : St} (hs : Fits past s) (n : Nat) (txt : List Char) (d : Delaunay) :
    ∃ r, computeDelaunay ends s n txt d = .ok r ∧ (r.calls = [] ↔ d.tris ≠ [] ∧ d.points = n) ∧ (r.returned = true ↔ r.calls = [] ∨ final ends (current past) = false) ∧ (r.leaked = true ↔ r.returned = false) ∧
      (∀ e ∈ r.calls, e.1 = current past ∧ e.2.2 = -1) := by
  obtain ⟨s1, e1, h1⟩ := error_fits hs noTriangles (-1)
  obtain ⟨s2, e2, h2⟩ := error_fits hs txt (-1)
  obtain ⟨s3, e3, h3⟩ := error_fits h1 txt (-1)
  rw [current_error] at e3
  have st : ∀ t x, stops ends [(current past, t, x)] = final ends (current past) := fun t x => by simp [stops, final]
  unfold computeDelaunay
  by_cases q1 : d.tris = []
  · by_cases q2 : d.points = n
    · cases hf : final ends (current past)
      · refine ⟨⟨[(current past, text (current past) noTriangles, -1)], true, false⟩, ?_, by simp [q1], by simp, by simp, by simp⟩
        simp [report, q1, q2, Res.bind_eq, e1, Res.bind_ok, st, hf, Res.pure_eq]
        rfl
      · refine ⟨⟨[(current past, text (current past) noTriangles, -1)], false, true⟩, ?_, by simp [q1], by simp, by simp, by simp⟩
        simp [report, q1, Res.bind_eq, e1, Res.bind_ok, st, hf, Res.pure_eq]
    · cases hf : final ends (current past)
      · refine ⟨⟨[(current past, text (current past) noTriangles, -1), (current past, text (current past) txt, -1)], true, false⟩, ?_, by simp [q1], by simp, by simp, by simp⟩
        simp [report, q1, q2, Res.bind_eq, e1, e3, Res.bind_ok, st, hf, Res.pure_eq]
      · refine ⟨⟨[(current past, text (current past) noTriangles, -1)], false, true⟩, ?_, by simp [q1], by simp, by simp, by simp⟩
        simp [report, q1, Res.bind_eq, e1, Res.bind_ok, st, hf, Res.pure_eq]
  · by_cases q2 : d.points = n
    · refine ⟨⟨[], true, false⟩, ?_, by simp [q1, q2], by simp, by simp, by simp⟩
      simp [report, q1, q2, Res.bind_eq, Res.bind_ok, stops, Res.pure_eq]
    · cases hf : final ends (current past)
      · refine ⟨⟨[(current past, text (current past) txt, -1)], true, false⟩, ?_, by simp [q2], by simp, by simp, by simp⟩
        simp [report, q1, q2, Res.bind_eq, e2, Res.bind_ok, st, hf, Res.pure_eq]
        rfl
      · refine ⟨⟨[(current past, text (current past) txt, -1)], false, true⟩, ?_, by simp [q2], by simp, by simp, by simp⟩
        simp [report, q1, q2, Res.bind_eq, e2, Res.bind_ok, st, hf, Res.pure_eq]
        rfl

theorem triCells_none : ∀ (k p : Nat) (s : Tri.TriS) (c : Tri.TriC), (∀ j, p ≤ j → j < p + k → s.gen2tri[j]? = some []) → Tri.triCells false s p k c = .ok c
  | 0, _, _, _, _ => rfl
  | k + 1, p, s, c, h => by
    have ih := triCells_none k (p + 1) s c fun j h1 h2 => h j (by omega) (by omega)
    unfold Tri.triCells rd
    simp only [Res.bind_eq]
    rw [h p (le_refl _) (by omega)]
    exact ih

/-- If the handler returns although there is no triangle, the tessellator goes on: a debug build stops at an assertion if there is a generator, a release build returns a mesh without nodes whose cells are all empty. -/
theorem C96_continue_fails (ends : Who → Bool) {past : List Op} {s : St} (hs : Fits past s) (hf : final ends (current past) = false) (txt : List Char) {delaunay : List (Geom.V2 ℝ) → Delaunay} {q : Geom.QT}
    (hd : (delaunay ((q.generators ++ q.guards).map (Tri.dequantize2 q))).tris = []) :
    (q.generators ≠ [] → triangleTess ends s txt delaunay true q = .abort) ∧
    triangleTess ends s txt delaunay false q = .ok (some { q with nodes := [], edges := [], cellEdges := List.replicate q.generators.length [] }) := by
  obtain ⟨r, e, _, hr, _⟩ := C96_delaunay ends hs ((q.generators ++ q.guards).map (Tri.dequantize2 q)).length txt (delaunay ((q.generators ++ q.guards).map (Tri.dequantize2 q)))
  have ret : r.returned = true := hr.mpr (Or.inr hf)
  unfold triangleTess
  simp only [Res.bind_eq]
  rw [e, Res.bind_ok, hd]
  constructor
  · intro hg
    rw [if_neg (by rw [ret]; simp)]
    unfold Tri.triRead Tri.triScan
    simp only [Res.bind_eq]
    rw [Res.bind_ok, Res.assert_debug_false]
    · rfl
    · intro hc
      unfold Tri.triContract at hc
      rw [Bool.and_eq_true] at hc
      have := List.all_eq_true.mp hc.2 0 (by rw [List.mem_range]; exact List.length_pos_iff.mpr hg)
      simp only [decide_eq_true_eq, List.getD_eq_getElem?_getD, List.getElem?_replicate] at this
      split_ifs at this <;> simp at this
  · rw [Res.bind_ok, if_neg (by rw [ret]; simp)]
    unfold Tri.triRead Tri.triScan
    simp only [Res.bind_eq]
    rw [Res.bind_ok, Res.assert_release, Res.bind_ok, triCells_none]
    · rfl
    · intro j _ hj
      rw [List.getElem?_replicate, if_pos]
      rw [List.length_map, List.length_append]; omega

/-! ### Tessellator objects -/

/-- The object of a two- or three-dimensional tessellator. -/
def objOf {R : Type} (two : Bool) (t : Tessellator R) : Obj R := if two then new2 t else new3 t

theorem C97_dimension {R : Type} (two : Bool) (t : Tessellator R) : dimension (objOf two t) = if two then 2 else 3 := by cases two <;> rfl

theorem behind_obj {R : Type} (dbg two : Bool) (t : Tessellator R) : behind dbg (objOf two t) = .ok (if two then 2 else 3, t) := by
  cases two
  · simp only [objOf, behind, new3, Res.bind_eq, Bool.false_eq_true, if_false]
    rw [Res.assert_true dbg (by simp)]; rfl
  · rfl

/-- C97: for points, boxes and PLCs, the C functions hand the first `dim * n` numbers of the array to the C++ tessellator, and what comes back in the C object describes the mesh that the C++ tessellator computes for
them; the arrays may be longer. -/
theorem C97_unbounded {R : Type} (dbg two : Bool) (t : Tessellator R) {pts rest : List R} {n : Nat} (hl : pts.length = (if two then 2 else 3) * n) {m : Tess R} (hm : t.unbounded pts = .ok m)
    (hw : CApi.Whole (if two then 2 else 3) m) (old : CApi.CTess R) :
    ∃ c, tessellateUnbounded dbg (objOf two t) (pts ++ rest) n old = .ok c ∧ CApi.Describes (if two then 2 else 3) c m := by
  obtain ⟨c, e, hd, _⟩ := CApi.C74_export dbg m old hw
  refine ⟨c, ?_, hd⟩
  unfold tessellateUnbounded firstOf
  simp only [Res.bind_eq, behind_obj, Res.bind_ok]
  rw [if_pos (by rw [List.length_append]; omega), Res.bind_ok, List.take_append_of_le_length (by omega), List.take_of_length_le (by omega), hm, Res.bind_ok, e]

theorem C97_box {R : Type} (dbg two : Bool) (t : Tessellator R) {pts rest low high : List R} {n : Nat} (hl : pts.length = (if two then 2 else 3) * n) (h1 : low.length = if two then 2 else 3)
    (h2 : high.length = if two then 2 else 3) {m : Tess R} (hm : t.inBox pts low high = .ok m) (hw : CApi.Whole (if two then 2 else 3) m) (old : CApi.CTess R) :
    ∃ c, tessellateInBox dbg (objOf two t) (pts ++ rest) n low high old = .ok c ∧ CApi.Describes (if two then 2 else 3) c m := by
  obtain ⟨c, e, hd, _⟩ := CApi.C74_export dbg m old hw
  refine ⟨c, ?_, hd⟩
  unfold tessellateInBox firstOf
  simp only [Res.bind_eq, behind_obj, Res.bind_ok]
  rw [if_pos (by rw [List.length_append]; omega), Res.bind_ok, if_pos (by omega), Res.bind_ok, if_pos (by omega), Res.bind_ok, List.take_append_of_le_length (by omega), List.take_of_length_le (by omega),
    List.take_of_length_le (by omega), List.take_of_length_le (by omega), hm, Res.bind_ok, e]

theorem C97_plc {R : Type} (dbg two : Bool) (t : Tessellator R) {pts rest ppts prest : List R} {n np : Nat} {plc : PLC} (hl : pts.length = (if two then 2 else 3) * n) (h1 : ppts.length = (if two then 2 else 3) * np)
    {m : Tess R} (hm : t.inPLC pts ppts plc = .ok m) (hw : CApi.Whole (if two then 2 else 3) m) (old : CApi.CTess R) :
    ∃ c, tessellateInPLC dbg (objOf two t) (pts ++ rest) n (ppts ++ prest) np (if two then 2 else 3, plc) old = .ok c ∧ CApi.Describes (if two then 2 else 3) c m := by
  obtain ⟨c, e, hd, _⟩ := CApi.C74_export dbg m old hw
  refine ⟨c, ?_, hd⟩
  unfold tessellateInPLC firstOf plcOf
  simp only [Res.bind_eq, behind_obj, Res.bind_ok]
  rw [if_pos (by rw [List.length_append]; omega), Res.bind_ok, if_pos (by rw [List.length_append]; omega), Res.bind_ok, if_pos trivial, Res.bind_ok, List.take_append_of_le_length (by omega), List.take_of_length_le (by omega),
    List.take_append_of_le_length (by omega), List.take_of_length_le (by omega), hm, Res.bind_ok, e]

/-- A PLC of the other dimension: a null pointer is followed, in every build and whatever the points. -/
theorem C97_plc_dimension_fails {R : Type} (dbg two : Bool) (t : Tessellator R) {pts ppts : List R} {n np : Nat} {plc : PLC} (old : CApi.CTess R) :
    tessellateInPLC dbg (objOf two t) pts n ppts np (if two then 3 else 2, plc) old = .ub := by
  unfold tessellateInPLC firstOf plcOf
  simp only [Res.bind_eq, behind_obj, Res.bind_ok]
  by_cases q : (if two then 2 else 3) * n ≤ pts.length
  · rw [if_pos q, Res.bind_ok]
    by_cases q' : (if two then 2 else 3) * np ≤ ppts.length
    · rw [if_pos q', Res.bind_ok]
      cases two <;> rfl
    · rw [if_neg q']; rfl
  · rw [if_neg q]; rfl

/-- A mesh object made for the other dimension keeps its dimension: it then says that the nodes have another number of coordinates than they have. Nothing checks this. -/
theorem C97_mesh_dimension_fails {R : Type} (dbg two : Bool) (t : Tessellator R) {pts rest : List R} {n : Nat} {old c : CApi.CTess R} (h : tessellateUnbounded dbg (objOf two t) (pts ++ rest) n old = .ok c) :
    c.dimension = old.dimension := by
  unfold tessellateUnbounded CApi.exportTo at h
  simp only [Res.bind_eq, behind_obj, Res.bind_ok] at h
  obtain ⟨_, _, h⟩ := Res.bind_eq_ok.1 h
  obtain ⟨_, _, h⟩ := Res.bind_eq_ok.1 h
  iterate 10 (obtain ⟨_, _, h⟩ := Res.bind_eq_ok.1 h)
  simp only [Res.pure_eq, Res.ok.injEq] at h
  rw [← h]

/-- The name: the pointer that is returned is to a text that no longer exists, for every tessellator. -/
theorem C97_name_fails {R : Type} (dbg two : Bool) (t : Tessellator R) (mem : Texts) : ∃ mem' p, name dbg (objOf two t) mem = .ok (mem', p) ∧ readText mem' p = .ub := by
  refine ⟨(mem ++ [some t.name]).set mem.length none, mem.length, ?_, ?_⟩
  · unfold name
    simp only [Res.bind_eq, behind_obj, Res.bind_ok, List.length_append, List.length_cons, List.length_nil, Nat.zero_add, Nat.add_sub_cancel]
    rfl
  · unfold readText
    rw [List.getElem?_set_self (by simp)]

section
/-- Set a C++ handler, an error, set a C handler, an error, back to the default, an error, one more. -/
def prog : List Op := [.set (some 1), .error "a".toList 3, .setC (some 2), .error ['b', Char.ofNat 0, 'c'] 4, .set none, .error "d".toList 5, .error "e".toList 6]
example : expected prog = [(.cpp 1, "a".toList, 3), (.c 2, ['b'], 4), (.dflt, "d".toList, 5), (.dflt, "e".toList, 6)] := by decide
example : run true (fun _ => false) prog {} = .ok [(.cpp 1, "a".toList, 3), (.c 2, ['b'], 4), (.dflt, "d".toList, 5)] := by rw [C96_delivery true _ (by decide)]; decide
example : run true (fun _ => false) (prog.take 4) {} = .ok [(.cpp 1, "a".toList, 3), (.c 2, ['b'], 4)] := by rw [C96_all true (by decide) (by decide)]; decide
example : Fits [.set (some 1)] { handler := some (.cpp 1) } := rfl
example : computeDelaunay (fun _ => false) { handler := some (.cpp 1) } 3 [] ⟨3, []⟩ = .ok ⟨[(.cpp 1, noTriangles, -1)], true, false⟩ := rfl
example : computeDelaunay (fun _ => false) {} 3 [] ⟨3, []⟩ = .ok ⟨[(.dflt, noTriangles, -1)], false, true⟩ := rfl
/-- A tessellator that always gives a mesh with one node. -/
def one : Tessellator Nat := ⟨fun _ => .ok { nodes := [7, 8] }, fun _ _ _ => .ok { nodes := [7, 8] }, fun _ _ _ => .ok { nodes := [7, 8] }, "one".toList⟩
example : ∃ c, tessellateUnbounded true (new2 one) [1, 2, 3, 4, 99] 2 { dimension := 2 } = .ok c ∧ CApi.Describes 2 c { nodes := [7, 8] } :=
  C97_unbounded true true one (pts := [1, 2, 3, 4]) (rest := [99]) rfl rfl ⟨by decide, by decide, by simp, by decide, by decide⟩ _
theorem one_whole : CApi.Whole 2 ({ nodes := [7, 8] } : Tess Nat) := ⟨by decide, by decide, by simp, by decide, by decide⟩
example : ∃ c, tessellateInBox true (new2 one) [1, 2, 3, 4] 2 [0, 0] [9, 9] { dimension := 2 } = .ok c ∧ CApi.Describes 2 c { nodes := [7, 8] } :=
  C97_box true true one (pts := [1, 2, 3, 4]) (rest := []) rfl rfl rfl rfl one_whole _
example : ∃ c, tessellateInPLC true (new2 one) [1, 2, 3, 4] 2 [0, 0, 9, 0, 0, 9] 3 (2, { facets := [[0, 1], [1, 2], [2, 0]] }) { dimension := 2 } = .ok c ∧ CApi.Describes 2 c { nodes := [7, 8] } :=
  C97_plc true true one (pts := [1, 2, 3, 4]) (rest := []) (ppts := [0, 0, 9, 0, 0, 9]) (prest := []) rfl rfl rfl one_whole _
example : ∃ c, tessellateUnbounded true (new2 one) [1, 2] 1 { dimension := 3 } = .ok c ∧ c.dimension = 3 := by
  obtain ⟨c, e, _⟩ := C97_unbounded true true one (pts := [1, 2]) (rest := []) (n := 1) rfl rfl one_whole { dimension := 3 }
  exact ⟨c, e, C97_mesh_dimension_fails (rest := []) true true one e⟩
/-- Two generators on the grid, and a triangulation without triangles (as of all collinear points). -/
noncomputable def flatQ : Geom.QT := { xmin := 0, ymin := 0, length := 1, generators := [⟨0, 0, 0⟩, ⟨1, 1, 1⟩] }
example : triangleTess (fun _ => false) { handler := some (.cpp 1) } [] (fun pts => ⟨pts.length, []⟩) true flatQ = .abort :=
  (C96_continue_fails (past := [.set (some 1)]) (s := { handler := some (.cpp 1) }) (fun _ => false) (show InForce _ (.cpp 1) from rfl) rfl [] rfl).1 (by simp [flatQ])
end
end Verif.Errors
