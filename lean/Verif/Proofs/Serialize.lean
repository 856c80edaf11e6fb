import Verif.Spec.Serialize
namespace Verif.Serialize
open Verif

theorem bytesOf_length : ∀ (k : Nat) (v : BitVec (8 * k)), (bytesOf k v).length = k
  | 0, _ => rfl
  | k + 1, v => by simp [bytesOf, bytesOf_length k]

theorem ofBytes_bytesOf : ∀ (k : Nat) (v : BitVec (8 * k)), ofBytes k (bytesOf k v) = v
  | 0, v => by simp only [ofBytes]; exact (BitVec.eq_nil v).symm
  | k + 1, v => by
    simp only [bytesOf, ofBytes, ofBytes_bytesOf k]
    ext i hi
    simp only [BitVec.getElem_or, BitVec.getElem_setWidth, BitVec.getElem_shiftLeft, BitVec.getLsbD_setWidth,
      BitVec.getLsbD_ushiftRight]
    by_cases h8 : i < 8
    · simp [h8, BitVec.getLsbD_eq_getElem hi]
    · have : 8 + (i - 8) = i := by omega
      have h2 : i - 8 < 8 * k := by omega
      simp [h8, this, h2, BitVec.getLsbD_eq_getElem hi]

/-! ### Writers only append -/

/-- A writer appends bytes that depend on the value only. -/
def Appends {α : Type} (f : α → List Byte → List Byte) : Prop := ∀ v buf, f v buf = buf ++ f v []

theorem appends_prim (k : Nat) : Appends (serPrim k) := by
  intro v buf; simp [serPrim]

theorem appends_list {α : Type} {f : α → List Byte → List Byte} (h : Appends f) : Appends (serList f) := by
  intro v
  induction v with
  | nil => intro buf; simp [serList]
  | cons a as ih =>
    intro buf
    simp only [serList]
    rw [ih (f a buf), ih (f a []), h a buf]
    simp

theorem serSize_append (n : Nat) (buf : List Byte) : serSize n buf = buf ++ serSize n [] := by
  simp [serSize, serPrim]

theorem appends_vec {α : Type} {f : α → List Byte → List Byte} (h : Appends f) : Appends (serVec f) := by
  intro v buf
  unfold serVec
  rw [appends_list h _ (serSize v.length buf), appends_list h _ (serSize v.length []), serSize_append]
  simp

theorem appends_ser : ∀ t : Ty, Appends (ser t)
  | .prim k => by intro v buf; exact appends_prim k v buf
  | .vec t => by intro v buf; exact appends_vec (appends_ser t) v buf
  | .point2 k => by intro v buf; simp [ser, serPrim]
  | .point3 k => by intro v buf; simp [ser, serPrim]
  | .seg t => by
    intro v buf
    simp only [ser]
    rw [appends_ser t v.2 (ser t v.1 buf), appends_ser t v.2 (ser t v.1 []), appends_ser t v.1 buf]
    simp
  | .plc => by
    intro v buf
    simp only [ser]
    have h1 := appends_vec (appends_vec (appends_prim 4))
    have h2 := appends_vec h1
    rw [h2 _ (serVec (serVec (serPrim 4)) v.facets buf), h2 _ (serVec (serVec (serPrim 4)) v.facets []),
      h1 _ buf]
    simp
  | .rplc => by
    intro v buf
    simp only [ser]
    have h1 := appends_list (appends_vec (appends_prim 4))
    have h2 := appends_vec (appends_vec (appends_vec (appends_prim 4)))
    have h3 := appends_vec (appends_prim 8)
    rw [h3 _ (serVec _ v.holes _), h3 _ (serVec _ v.holes (serList _ _ (serSize v.facets.length []))),
      h2 _ (serList _ _ _), h2 _ (serList _ _ (serSize v.facets.length [])),
      h1 _ (serSize v.facets.length buf), h1 _ (serSize v.facets.length []), serSize_append]
    simp

theorem serMsg_append (m : Msg) : ∀ buf, serMsg m buf = buf ++ serMsg m [] := by
  induction m with
  | nil => intro buf; simp [serMsg]
  | cons x m ih =>
    intro buf
    obtain ⟨t, v⟩ := x
    simp only [serMsg]
    rw [ih (ser t v buf), ih (ser t v []), appends_ser t v buf]
    simp

/-! ### Readers invert writers -/

/-- Reading at the start of what the writer wrote gives the value back and advances past it. -/
def Inverts {α : Type} (f : α → List Byte → List Byte) (d : α) (g : α → List Byte → Nat → Res (α × Nat))
    (v : α) : Prop :=
  ∀ pre post, g d (pre ++ (f v [] ++ post)) pre.length = .ok (v, pre.length + (f v []).length)

theorem deserPrim_bytes (dbg : Bool) (k : Nat) (v : BitVec (8 * k)) (pre post : List Byte) :
    deserPrim dbg k (pre ++ (bytesOf k v ++ post)) pre.length = .ok (v, pre.length + k) := by
  have hl := bytesOf_length k v
  have h : pre.length + k ≤ (pre ++ (bytesOf k v ++ post)).length := by simp [hl]
  unfold deserPrim
  simp only [Res.assert_true dbg h, Res.bind_eq, Res.bind_ok, if_pos h, Res.pure_eq]
  rw [List.drop_left]
  have : List.take k (bytesOf k v ++ post) = bytesOf k v := by
    rw [List.take_append_of_le_length (by omega), List.take_of_length_le (by omega)]
  rw [this, ofBytes_bytesOf]

theorem inverts_prim (dbg : Bool) (k : Nat) (d v : BitVec (8 * k)) : Inverts (serPrim k) d (deserInto dbg k) v := by
  intro pre post
  have := deserPrim_bytes dbg k v pre post
  simpa [serPrim, deserInto, bytesOf_length] using this

theorem deserSize (dbg : Bool) (n : Nat) (pre post : List Byte) :
    deserPrim dbg 4 (pre ++ (serSize n [] ++ post)) pre.length =
      .ok (BitVec.ofNat 32 n, pre.length + (serSize n []).length) := by
  have := deserPrim_bytes dbg 4 (BitVec.ofNat 32 n) pre post
  simpa [serSize, serPrim, bytesOf_length] using this

theorem inverts_list {α : Type} {f : α → List Byte → List Byte} (hf : Appends f)
    {g : α → List Byte → Nat → Res (α × Nat)} :
    ∀ (ds v : List α), ds.length = v.length → (∀ a ∈ v, ∀ d ∈ ds, Inverts f d g a) →
      ∀ pre post, deserList g ds (pre ++ (serList f v [] ++ post)) pre.length =
        .ok (v, pre.length + (serList f v []).length)
  | [], [], _, _, pre, post => by simp [deserList, serList]
  | [], _ :: _, h, _, _, _ => by simp at h
  | _ :: _, [], h, _, _, _ => by simp at h
  | d :: ds, a :: v, hl, h, pre, post => by
    have ha := h a (by simp) d (by simp)
    have ih := inverts_list hf (g := g) ds v (by simpa using hl)
      (fun b hb e he => h b (by simp [hb]) e (by simp [he])) (pre ++ f a []) post
    have e1 : serList f (a :: v) [] = f a [] ++ serList f v [] := by
      simp only [serList]; exact appends_list hf v (f a [])
    have e2 : pre ++ (serList f (a :: v) [] ++ post) = pre ++ (f a [] ++ (serList f v [] ++ post)) := by
      rw [e1]; simp
    simp only [deserList, Res.bind_eq]
    rw [e2, ha pre]
    simp only [Res.bind_ok]
    have e3 : pre ++ (f a [] ++ (serList f v [] ++ post)) = (pre ++ f a []) ++ (serList f v [] ++ post) := by simp
    rw [e3, ← List.length_append, ih]
    simp [e1, Nat.add_assoc]

/-- Reading a vector into any destination appends what was written. -/
theorem deserVec_spec {α : Type} (dbg : Bool) {f : α → List Byte → List Byte} (hf : Appends f) (fresh : α)
    {g : α → List Byte → Nat → Res (α × Nat)} (v : List α) (hv : v.length < 2 ^ 32)
    (h : ∀ a ∈ v, Inverts f fresh g a) (dst : List α) (pre post : List Byte) :
    deserVec dbg fresh g dst (pre ++ (serVec f v [] ++ post)) pre.length =
      .ok (dst ++ v, pre.length + (serVec f v []).length) := by
  have e : serVec f v [] = serSize v.length [] ++ serList f v [] := by
    unfold serVec
    rw [Nat.mod_eq_of_lt hv, List.take_length, appends_list hf]
  have hs := deserSize dbg v.length pre (serList f v [] ++ post)
  unfold deserVec
  simp only [Res.bind_eq]
  rw [e, List.append_assoc, hs]
  simp only [Res.bind_ok, BitVec.toNat_ofNat, Nat.mod_eq_of_lt hv]
  have := inverts_list hf (g := g) (List.replicate v.length fresh) v (by simp)
    (fun a ha d hd => by rw [List.eq_of_mem_replicate hd]; exact h a ha) (pre ++ serSize v.length []) post
  simp only [List.append_assoc, List.length_append] at this
  rw [this]
  simp [Nat.add_assoc]

theorem inverts_vec {α : Type} (dbg : Bool) {f : α → List Byte → List Byte} (hf : Appends f) (fresh : α)
    {g : α → List Byte → Nat → Res (α × Nat)} (v : List α) (hv : v.length < 2 ^ 32)
    (h : ∀ a ∈ v, Inverts f fresh g a) : Inverts (serVec f) [] (deserVec dbg fresh g) v := by
  intro pre post
  simpa using deserVec_spec dbg hf fresh v hv h [] pre post

theorem inverts_facets (dbg : Bool) (v : List (List (BitVec 32)))
    (h : v.length < 2 ^ 32 ∧ ∀ f ∈ v, f.length < 2 ^ 32) :
    Inverts (serVec (serVec (serPrim 4))) [] (deserVec dbg [] (deserVec dbg 0 (deserInto dbg 4))) v :=
  inverts_vec dbg (appends_vec (appends_prim 4)) [] v h.1
    (fun a ha => inverts_vec dbg (appends_prim 4) 0 a (h.2 a ha) (fun b _ => inverts_prim dbg 4 0 b))

theorem inverts_holes (dbg : Bool) (v : List (List (List (BitVec 32))))
    (h : v.length < 2 ^ 32 ∧ ∀ h ∈ v, h.length < 2 ^ 32 ∧ ∀ f ∈ h, f.length < 2 ^ 32) :
    Inverts (serVec (serVec (serVec (serPrim 4)))) []
      (deserVec dbg [] (deserVec dbg [] (deserVec dbg 0 (deserInto dbg 4)))) v :=
  inverts_vec dbg (appends_vec (appends_vec (appends_prim 4))) [] v h.1
    (fun a ha => inverts_facets dbg a (h.2 a ha))

theorem inverts_ser (dbg : Bool) : ∀ (t : Ty) (v : t.denote), Fits t v → Inverts (ser t) t.fresh (deser dbg t) v
  | .prim k, v, _ => inverts_prim dbg k _ v
  | .vec t, v, h =>
    inverts_vec dbg (appends_ser t) t.fresh v h.1 (fun a ha => inverts_ser dbg t a (h.2 a ha))
  | .point2 k, v, _ => by
    intro pre post
    have h1 := deserPrim_bytes dbg k v.x pre (bytesOf k v.y ++ (bytesOf 4 v.index ++ post))
    have h2 := deserPrim_bytes dbg k v.y (pre ++ bytesOf k v.x) (bytesOf 4 v.index ++ post)
    have h3 := deserPrim_bytes dbg 4 v.index (pre ++ bytesOf k v.x ++ bytesOf k v.y) post
    simp only [List.append_assoc, List.length_append, bytesOf_length, List.nil_append] at h1 h2 h3
    simp only [ser, serPrim, deser, List.nil_append, List.append_assoc, Res.bind_eq, h1, h2, h3, Res.bind_ok,
      List.length_append, bytesOf_length, Nat.add_assoc, Res.pure_eq] at *
  | .point3 k, v, _ => by
    intro pre post
    have h1 := deserPrim_bytes dbg k v.x pre (bytesOf k v.y ++ (bytesOf k v.z ++ (bytesOf 4 v.index ++ post)))
    have h2 := deserPrim_bytes dbg k v.y (pre ++ bytesOf k v.x) (bytesOf k v.z ++ (bytesOf 4 v.index ++ post))
    have h3 := deserPrim_bytes dbg k v.z (pre ++ bytesOf k v.x ++ bytesOf k v.y) (bytesOf 4 v.index ++ post)
    have h4 := deserPrim_bytes dbg 4 v.index (pre ++ bytesOf k v.x ++ bytesOf k v.y ++ bytesOf k v.z) post
    simp only [List.append_assoc, List.length_append, bytesOf_length, List.nil_append] at h1 h2 h3 h4
    simp only [ser, serPrim, deser, List.nil_append, List.append_assoc, Res.bind_eq, h1, h2, h3, Res.bind_ok,
      List.length_append, bytesOf_length, Nat.add_assoc, Res.pure_eq] at *
    simp only [h4, Res.bind_ok]
  | .seg t, v, h => by
    intro pre post
    have h1 := inverts_ser dbg t v.1 h.1 pre (ser t v.2 [] ++ post)
    have h2 := inverts_ser dbg t v.2 h.2 (pre ++ ser t v.1 []) post
    have e : ser (.seg t) v [] = ser t v.1 [] ++ ser t v.2 [] := by
      simp only [ser]; exact appends_ser t _ _
    rw [e]
    simp only [List.append_assoc, List.length_append] at h1 h2 ⊢
    simp only [deser, Ty.fresh, Res.bind_eq, h1, Res.bind_ok, h2, Res.pure_eq, Nat.add_assoc]
  | .plc, v, h => by
    intro pre post
    have h1 := inverts_facets dbg v.facets h.1 pre (serVec (serVec (serVec (serPrim 4))) v.holes [] ++ post)
    have h2 := inverts_holes dbg v.holes h.2 (pre ++ serVec (serVec (serPrim 4)) v.facets []) post
    have e : ser .plc v [] = serVec (serVec (serPrim 4)) v.facets [] ++
        serVec (serVec (serVec (serPrim 4))) v.holes [] := by
      simp only [ser]; exact appends_vec (appends_vec (appends_vec (appends_prim 4))) _ _
    rw [e]
    simp only [List.append_assoc, List.length_append] at h1 h2 ⊢
    simp only [deser, Ty.fresh, Res.bind_eq, h1, Res.bind_ok, h2, Res.pure_eq, Nat.add_assoc]
  | .rplc, v, h => by
    intro pre post
    obtain ⟨hf, hh, hp⟩ := h
    have e : ser .rplc v [] = serSize v.facets.length [] ++ (serList (serVec (serPrim 4)) v.facets [] ++
        (serVec (serVec (serVec (serPrim 4))) v.holes [] ++ serVec (serPrim 8) v.points [])) := by
      simp only [ser]
      rw [Nat.mod_eq_of_lt hf.1, List.take_length, appends_vec (appends_prim 8),
        appends_vec (appends_vec (appends_vec (appends_prim 4))),
        appends_list (appends_vec (appends_prim 4))]
      simp
    rw [e]
    have h0 := deserSize dbg v.facets.length pre (serList (serVec (serPrim 4)) v.facets [] ++
        (serVec (serVec (serVec (serPrim 4))) v.holes [] ++ (serVec (serPrim 8) v.points [] ++ post)))
    have h1 := inverts_list (appends_vec (appends_prim 4)) (g := deserVec dbg 0 (deserInto dbg 4))
      (List.replicate v.facets.length []) v.facets (by simp)
      (fun a ha d hd => by
        rw [List.eq_of_mem_replicate hd]
        exact inverts_vec dbg (appends_prim 4) 0 a (hf.2 a ha) (fun b _ => inverts_prim dbg 4 0 b))
      (pre ++ serSize v.facets.length [])
      (serVec (serVec (serVec (serPrim 4))) v.holes [] ++ (serVec (serPrim 8) v.points [] ++ post))
    have h2 := inverts_holes dbg v.holes hh
      (pre ++ serSize v.facets.length [] ++ serList (serVec (serPrim 4)) v.facets [])
      (serVec (serPrim 8) v.points [] ++ post)
    have h3 := inverts_vec dbg (appends_prim 8) 0 v.points hp (fun b _ => inverts_prim dbg 8 0 b)
      (pre ++ serSize v.facets.length [] ++ serList (serVec (serPrim 4)) v.facets [] ++
        serVec (serVec (serVec (serPrim 4))) v.holes []) post
    simp only [List.append_assoc, List.length_append] at h0 h1 h2 h3 ⊢
    have hr : resize ([] : List (List (BitVec 32))) (BitVec.ofNat 32 v.facets.length).toNat [] =
        List.replicate v.facets.length [] := by
      simp [resize, Nat.mod_eq_of_lt hf.1]
    simp only [deser, Ty.fresh, Res.bind_eq, h0, Res.bind_ok, hr, h1]
    simp only [Nat.add_assoc] at h1 h2 h3 ⊢
    simp only [h2, Res.bind_ok]
    simp only [h3, Res.bind_ok, Res.pure_eq, Nat.add_assoc]

theorem deserMsg_serMsg (dbg : Bool) : ∀ (m : Msg), MsgFits m → ∀ pre post,
    deserMsg dbg (m.map Sigma.fst) (pre ++ (serMsg m [] ++ post)) pre.length =
      .ok (m, pre.length + (serMsg m []).length)
  | [], _, pre, post => by simp [deserMsg, serMsg]
  | ⟨t, v⟩ :: m, h, pre, post => by
    have h1 := inverts_ser dbg t v (h ⟨t, v⟩ (by simp)) pre (serMsg m [] ++ post)
    have h2 := deserMsg_serMsg dbg m (fun x hx => h x (by simp [hx])) (pre ++ ser t v []) post
    have e : serMsg (⟨t, v⟩ :: m) [] = ser t v [] ++ serMsg m [] := by
      simp only [serMsg]; exact serMsg_append m _
    rw [e]
    simp only [List.append_assoc, List.length_append] at h1 h2 ⊢
    simp only [List.map_cons, deserMsg, Res.bind_eq, h1, Res.bind_ok, h2, Res.pure_eq, Nat.add_assoc]

/-! ### Truncated buffers -/

/-- A reader is stable: once it succeeds it reads the same from a longer buffer, it does not move past the end, and with
assertions on it never has undefined behaviour. -/
structure Stable {γ : Type} (r : Bool → List Byte → Nat → Res (γ × Nat)) : Prop where
  ext : ∀ dbg buf pos a p post, r dbg buf pos = .ok (a, p) → r dbg (buf ++ post) pos = .ok (a, p)
  le : ∀ dbg buf pos a p, pos ≤ buf.length → r dbg buf pos = .ok (a, p) → p ≤ buf.length
  noub : ∀ buf pos, r true buf pos ≠ .ub

theorem deserPrim_ok {dbg : Bool} {k : Nat} {buf : List Byte} {pos : Nat} {a : BitVec (8 * k)} {p : Nat} :
    deserPrim dbg k buf pos = .ok (a, p) ↔
      pos + k ≤ buf.length ∧ a = ofBytes k ((buf.drop pos).take k) ∧ p = pos + k := by
  unfold deserPrim
  by_cases h : pos + k ≤ buf.length
  · simp [h, eq_comm]
  · cases dbg <;> simp [h, Res.assert]

theorem stable_prim (k : Nat) : Stable (fun dbg => deserPrim dbg k) where
  ext := by
    intro dbg buf pos a p post h
    rw [deserPrim_ok] at h ⊢
    obtain ⟨h1, h2, h3⟩ := h
    refine ⟨by simp; omega, ?_, h3⟩
    rw [h2, List.drop_append_of_le_length (by omega), List.take_append_of_le_length (by simp; omega)]
  le := by
    intro dbg buf pos a p _ h
    rw [deserPrim_ok] at h
    omega
  noub := by
    intro buf pos
    unfold deserPrim
    by_cases h : pos + k ≤ buf.length <;> simp [h, Res.assert]

theorem stable_pure {γ : Type} (c : γ) : Stable (fun _ _ pos => .ok (c, pos)) where
  ext := by intro _ _ _ _ _ _ h; exact h
  le := by intro _ _ _ _ _ hp h; simp at h; omega
  noub := by intro _ _; simp

/-- Sequencing stable readers. -/
theorem stable_bind {α γ : Type} {r : Bool → List Byte → Nat → Res (α × Nat)}
    {k : α → Bool → List Byte → Nat → Res (γ × Nat)} (hr : Stable r) (hk : ∀ x, Stable (k x)) :
    Stable (fun dbg buf pos => (r dbg buf pos).bind fun y => k y.1 dbg buf y.2) where
  ext := by
    intro dbg buf pos a p post h
    rw [Res.bind_eq_ok] at h ⊢
    obtain ⟨⟨x, p1⟩, h1, h2⟩ := h
    exact ⟨(x, p1), hr.ext _ _ _ _ _ post h1, (hk x).ext _ _ _ _ _ post h2⟩
  le := by
    intro dbg buf pos a p hp h
    rw [Res.bind_eq_ok] at h
    obtain ⟨⟨x, p1⟩, h1, h2⟩ := h
    exact (hk x).le _ _ _ _ _ (hr.le _ _ _ _ _ hp h1) h2
  noub := by
    intro buf pos
    cases hx : r true buf pos with
    | ub => exact absurd hx (hr.noub _ _)
    | abort => simp
    | ok y => exact (hk y.1).noub _ _

theorem stable_list {α : Type} {g : Bool → α → List Byte → Nat → Res (α × Nat)}
    (hg : ∀ d, Stable (fun dbg => g dbg d)) : ∀ ds, Stable (fun dbg => deserList (g dbg) ds)
  | [] => stable_pure []
  | d :: ds => stable_bind (hg d) (fun x => stable_bind (stable_list hg ds) (fun xs => stable_pure (x :: xs)))

theorem stable_vec {α : Type} {g : Bool → α → List Byte → Nat → Res (α × Nat)} (fresh : α)
    (hg : ∀ d, Stable (fun dbg => g dbg d)) (dst : List α) :
    Stable (fun dbg => deserVec dbg fresh (g dbg) dst) :=
  stable_bind (stable_prim 4) (fun n => stable_bind (stable_list hg (List.replicate n.toNat fresh))
    (fun xs => stable_pure (dst ++ xs)))

theorem stable_deser : ∀ (t : Ty) (dst : t.denote), Stable (fun dbg => deser dbg t dst)
  | .prim k, _ => stable_prim k
  | .vec t, dst => stable_vec t.fresh (stable_deser t) dst
  | .point2 k, _ => stable_bind (stable_prim k) (fun x => stable_bind (stable_prim k) (fun y =>
      stable_bind (stable_prim 4) (fun i => stable_pure (Pt2.mk x y i))))
  | .point3 k, _ => stable_bind (stable_prim k) (fun x => stable_bind (stable_prim k) (fun y =>
      stable_bind (stable_prim k) (fun z => stable_bind (stable_prim 4) (fun i => stable_pure (Pt3.mk x y z i)))))
  | .seg t, dst => stable_bind (stable_deser t dst.1) (fun a => stable_bind (stable_deser t dst.2)
      (fun b => stable_pure (a, b)))
  | .plc, dst =>
    let hf := stable_vec (g := fun dbg => deserInto dbg 4) 0 (fun _ => stable_prim 4)
    let hh := stable_vec [] hf
    stable_bind (hh dst.facets) (fun fs => stable_bind (stable_vec [] hh dst.holes) (fun hs => stable_pure (PLC.mk fs hs)))
  | .rplc, dst =>
    let hf := stable_vec (g := fun dbg => deserInto dbg 4) 0 (fun _ => stable_prim 4)
    let hp := stable_vec (g := fun dbg => deserInto dbg 8) 0 (fun _ => stable_prim 8)
    stable_bind (stable_prim 4) (fun nf => stable_bind (stable_list hf (resize dst.facets nf.toNat []))
      (fun fs => stable_bind (stable_vec [] (stable_vec [] hf) dst.holes)
        (fun hs => stable_bind (hp dst.points) (fun ps => stable_pure (RPLC.mk fs hs ps)))))

theorem stable_msg : ∀ ts : List Ty, Stable (fun dbg => deserMsg dbg ts)
  | [] => stable_pure []
  | t :: ts => stable_bind (stable_deser t t.fresh) (fun v => stable_bind (stable_msg ts)
      (fun m => stable_pure ((Sigma.mk t v : Σ t : Ty, t.denote) :: m)))

/-- A stable reader that consumes a whole buffer succeeds on no strict prefix of it. -/
theorem Stable.prefix_fails {γ : Type} {r : Bool → List Byte → Nat → Res (γ × Nat)} (h : Stable r) (dbg : Bool)
    {buf : List Byte} {v : γ} (hb : r dbg buf 0 = .ok (v, buf.length)) {k : Nat} (hk : k < buf.length) :
    (∀ x, r dbg (buf.take k) 0 ≠ .ok x) ∧ (dbg = true → r dbg (buf.take k) 0 = .abort) := by
  have h1 : ∀ x, r dbg (buf.take k) 0 ≠ .ok x := by
    rintro ⟨a, p⟩ hx
    have h2 := h.le _ _ _ _ _ (Nat.zero_le _) hx
    have h3 := h.ext _ _ _ _ _ (buf.drop k) hx
    rw [List.take_append_drop, hb] at h3
    simp at h3
    simp at h2
    omega
  refine ⟨h1, ?_⟩
  intro hd
  subst hd
  cases hx : r true (buf.take k) 0 with
  | ub => exact absurd hx (h.noub _ _)
  | abort => rfl
  | ok x => exact absurd hx (h1 x)

end Verif.Serialize
