import Verif.Proofs.Hull
/- Both loops of the hull together. -/
namespace Verif.Geom
open Verif Verif.Mesh

theorem inc_uniq {P : List Tagged} (hp : P.Pairwise fun a b => lexLt a.1 b.1) {a b : Tagged} (ha : a ∈ P) (hb : b ∈ P) (h : a.1 = b.1) : a = b := by
  induction P with
  | nil => simp at ha
  | cons x P ih =>
    obtain ⟨h1, h2⟩ := List.pairwise_cons.mp hp
    rcases List.mem_cons.mp ha with rfl | ha' <;> rcases List.mem_cons.mp hb with rfl | hb'
    · rfl
    · have := h1 b hb'; rw [h] at this; exact absurd this (lexLt_irrefl _)
    · have := h1 a ha'; rw [h] at this; exact absurd this (lexLt_irrefl _)
    · exact ih h2 ha' hb'

/-- A chain over at least two points has two different ends. -/
theorem Chain.ends {P s : List Tagged} (h : Chain P s) (hs : s ≠ []) {x y : Tagged} (hx : x ∈ P) (hy : y ∈ P) (hxy : lexLt x.1 y.1) :
    ∃ l M f, s = l :: (M ++ [f]) := by
  cases s with
  | nil => exact absurd rfl hs
  | cons l s =>
    rcases s.eq_nil_or_concat with rfl | ⟨M, f, rfl⟩
    · have h1 := h.top l [] rfl y hy
      have h2 := h.bottom [] l rfl x hx
      exact absurd (hxy.trans_le (h1.trans h2)) (lexLt_irrefl _)
    · exact ⟨l, M, f, by rw [List.concat_eq_append]⟩

theorem mem_pairs' {α : Type} {c d : α} {X Y : List α} : (c, d) ∈ pairs (X ++ c :: d :: Y) := by
  rw [pairs_append]; simp

theorem hullLoop_spec {P : List Tagged} (hp : P.Pairwise fun a b => lexLt a.1 b.1) (h2 : 2 ≤ P.length) :
    ∃ f l Lm Um, lexLt f.1 l.1 ∧ hullLoop P = (f :: Lm) ++ ((l :: Um) ++ [f]) ∧ (∀ e ∈ (f :: Lm) ++ (l :: Um), e ∈ P) ∧
      (∀ a b c, List.Sublist [a, b, c] ((f :: Lm) ++ (l :: Um)) → 0 < ar a.1 b.1 c.1) ∧
      (∀ e ∈ pairs ((f :: Lm) ++ ((l :: Um) ++ [f])), ∀ q ∈ P, 0 ≤ ar e.1.1 e.2.1 q.1) := by
  have hne : P ≠ [] := by rintro rfl; simp at h2
  obtain ⟨x, y, hx, hy, hxy⟩ : ∃ x y, x ∈ P ∧ y ∈ P ∧ lexLt x.1 y.1 := by
    match P, h2, hp with
    | a :: b :: P, _, hp => exact ⟨a, b, by simp, by simp, (List.pairwise_cons.mp hp).1 b (by simp)⟩
  have hS := chain_lower hne hp
  have hSne : chain 2 P [] ≠ [] := by
    cases P with
    | nil => exact absurd rfl hne
    | cons p ps =>
      have : ∀ (ps s : List Tagged), s ≠ [] → chain 2 ps s ≠ [] := by
        intro ps
        induction ps with
        | nil => intro s h; exact h
        | cons p ps ih => intro s _; exact ih _ (by simp)
      exact this ps _ (by simp)
  obtain ⟨l, M, f, hl⟩ := hS.ends hSne hx hy hxy
  have hlP : l ∈ P := hS.mem l (by rw [hl]; simp)
  have hfP : f ∈ P := hS.mem f (by rw [hl]; simp)
  have hltop := hS.top l _ hl
  have hfbot := hS.bottom (l :: M) f (by rw [hl]; simp)
  -- the last point
  obtain ⟨D, hD⟩ : ∃ D, P = D ++ [l] := by
    rcases P.eq_nil_or_concat with h | ⟨D, z, h⟩
    · exact absurd h hne
    · rw [List.concat_eq_append] at h
      have hz : z ∈ P := by rw [h]; simp
      have : z = l := by
        by_contra hzl
        have hlD : l ∈ D := by
          have := hlP
          rw [h] at this
          rcases List.mem_append.mp this with h' | h'
          · exact h'
          · exact absurd (List.mem_singleton.mp h').symm hzl
        rw [h] at hp
        have h1 := (List.pairwise_append.mp hp).2.2 l hlD z (by simp)
        exact lexLt_irrefl _ (h1.trans_le (hltop z hz))
      exact ⟨D, by rw [h, this]⟩
  -- the upper chain
  have hU : Chain (P.reverse.map refl) ((chain 2 P.reverse []).map refl) := by
    have := chain_lower (P := P.reverse.map refl) (by simpa using hne) (by
      rw [List.pairwise_map, List.pairwise_reverse]
      exact hp.imp fun h => lexLt_refl.mpr h)
    have e := chain_refl 2 P.reverse []
    rw [List.map_nil] at e
    rw [← e]; exact this
  have hTe : chain 2 P.reverse [] = chain 2 D.reverse [l] := by
    rw [hD, List.reverse_append]; rfl
  obtain ⟨f', M', l', hT⟩ : ∃ f' M' l', chain 2 P.reverse [] = f' :: (M' ++ [l']) := by
    obtain ⟨a, N, b, h⟩ := hU.ends (by
      rw [hTe]
      have : ∀ (ps s : List Tagged), s ≠ [] → chain 2 ps s ≠ [] := by
        intro ps
        induction ps with
        | nil => intro s h; exact h
        | cons p ps ih => intro s _; exact ih _ (by simp)
      simpa using this D.reverse [l] (by simp)) (x := refl y) (y := refl x) (List.mem_map.mpr ⟨y, List.mem_reverse.mpr hy, rfl⟩) (List.mem_map.mpr ⟨x, List.mem_reverse.mpr hx, rfl⟩) (lexLt_refl.mpr hxy)
    refine ⟨refl a, N.map refl, refl b, ?_⟩
    have := congrArg (List.map refl) h
    rw [List.map_map] at this
    simpa [Function.comp_def, refl_refl] using this
  have hTm : (chain 2 P.reverse []).map refl = refl f' :: (M'.map refl ++ [refl l']) := by rw [hT]; simp
  have hmemT : ∀ e ∈ chain 2 P.reverse [], e ∈ P := by
    intro e he
    have := hU.mem (refl e) (List.mem_map.mpr ⟨e, he, rfl⟩)
    obtain ⟨e', he', h⟩ := List.mem_map.mp this
    have : e' = e := by rw [← refl_refl e', h, refl_refl]
    rw [← this]; simpa using he'
  have hf' : f' = f := by
    apply inc_uniq hp (hmemT f' (by rw [hT]; simp)) hfP
    apply lexLe_antisymm
    · have := hU.top (refl f') _ hTm (refl f) (List.mem_map.mpr ⟨f, List.mem_reverse.mpr hfP, rfl⟩)
      exact lexLe_reflect.mp this
    · exact hfbot f' (hmemT f' (by rw [hT]; simp))
  have hl' : l' = l := by
    apply inc_uniq hp (hmemT l' (by rw [hT]; simp)) hlP
    apply lexLe_antisymm
    · exact hltop l' (hmemT l' (by rw [hT]; simp))
    · have := hU.bottom (refl f' :: M'.map refl) (refl l') (by rw [hTm]; simp) (refl l) (List.mem_map.mpr ⟨l, List.mem_reverse.mpr hlP, rfl⟩)
      exact lexLe_reflect.mp this
  subst hf' hl'
  -- the result
  have hres : hullLoop P = (f' :: M.reverse) ++ ((l' :: M'.reverse) ++ [f']) := by
    unfold hullLoop
    dsimp only
    rw [hl]
    have e1 : (l' :: (M ++ [f'])).length + 1 = (M ++ [f']).length + 2 := by simp
    have e2 : P.dropLast = D := by rw [hD, List.dropLast_concat]
    have e3 : l' :: (M ++ [f']) = [l'] ++ (M ++ [f']) := rfl
    rw [e1, e2, e3, chain_base (by simp), ← hTe, hT]
    simp
  have hedge2 : ∀ X Y a b, chain 2 P.reverse [] = X ++ b :: a :: Y → ∀ q ∈ P, 0 ≤ ar a.1 b.1 q.1 := by
    intro X Y a b e q hq
    have := hU.edge (X.map refl) (Y.map refl) (refl a) (refl b) (by rw [e]; simp) (refl q) (List.mem_map.mpr ⟨q, List.mem_reverse.mpr hq, rfl⟩)
    rwa [ar_refl] at this
  have hturn2 : ∀ a b c, List.Sublist [c, b, a] (chain 2 P.reverse []) → 0 < ar a.1 b.1 c.1 := by
    intro a b c h
    have := hU.turn (refl a) (refl b) (refl c) (by simpa using h.map refl)
    rwa [ar_refl] at this
  have hL : (f' :: M.reverse) ++ [l'] = (chain 2 P []).reverse := by rw [hl]; simp
  have hUr : l' :: (M'.reverse ++ [f']) = (chain 2 P.reverse []).reverse := by rw [hT]; simp
  have hturnL : ∀ a b c, List.Sublist [a, b, c] ((f' :: M.reverse) ++ [l']) → 0 < ar a.1 b.1 c.1 := by
    intro a b c h
    rw [hL] at h
    exact hS.turn a b c (by simpa using h.reverse)
  have hturnU : ∀ a b c, List.Sublist [a, b, c] (l' :: (M'.reverse ++ [f'])) → 0 < ar a.1 b.1 c.1 := by
    intro a b c h
    rw [hUr] at h
    exact hturn2 a b c (by simpa using h.reverse)
  have hmL : ∀ e ∈ M.reverse, e ∈ P := fun e he => hS.mem e (by rw [hl]; simp at he; simp [he])
  have hmU : ∀ e ∈ M'.reverse, e ∈ P := fun e he => hmemT e (by rw [hT]; simp at he; simp [he])
  have hdL : ((f' :: M.reverse) ++ [l']).Pairwise fun a b => lexLt a.1 b.1 := by
    rw [hL, List.pairwise_reverse]; exact hS.desc
  have hdU : (l' :: (M'.reverse ++ [f'])).Pairwise fun a b => lexLt b.1 a.1 := by
    have := hU.desc
    rw [List.pairwise_map] at this
    rw [hUr, List.pairwise_reverse]
    exact this.imp fun h => lexLt_refl.mp h
  refine ⟨f', l', M.reverse, M'.reverse, ((hfbot x hx).trans_lt hxy).trans_le (hltop y hy), hres, ?_, ?_, ?_⟩
  · intro e he
    simp only [List.cons_append, List.mem_cons, List.mem_append] at he
    rcases he with rfl | he | rfl | he
    · exact hfP
    · exact hmL e he
    · exact hlP
    · exact hmU e he
  · intro a b c h
    have e : (f' :: M.reverse) ++ (l' :: M'.reverse) = ((f' :: M.reverse) ++ [l']) ++ M'.reverse := by simp
    rw [e] at h
    obtain ⟨l1, l2, e, h1, h2⟩ := List.sublist_append_iff.mp h
    -- a point strictly between the ends of the upper chain
    have up : ∀ u ∈ M'.reverse, 0 < ar f'.1 l'.1 u.1 := by
      intro u hu
      have := hturnU l' u f' (List.Sublist.cons_cons _ (by
        have := List.Sublist.append (List.singleton_sublist.mpr hu) (List.Sublist.refl [f'])
        simpa using this))
      rw [← ar_cyc] at this; exact this
    have down : ∀ v ∈ M.reverse, 0 < ar f'.1 v.1 l'.1 := by
      intro v hv
      refine hturnL f' v l' (List.Sublist.cons_cons _ ?_)
      simpa using List.Sublist.append (List.singleton_sublist.mpr hv) (List.Sublist.refl [l'])
    match l1, l2, e, h1, h2 with
    | [], [_, _, _], e, _, h2 =>
      injection e with e1 e; injection e with e2 e; injection e with e3 _
      subst e1 e2 e3
      exact hturnU a b c (List.Sublist.cons _ (h2.trans (List.sublist_append_left _ _)))
    | [_], [_, _], e, h1, h2 =>
      injection e with e1 e; injection e with e2 e; injection e with e3 _
      subst e1 e2 e3
      have ha : a ∈ (f' :: M.reverse) ++ [l'] := h1.subset (by simp)
      rw [ar_cyc]
      simp only [List.cons_append, List.mem_cons, List.mem_append, List.not_mem_nil, or_false] at ha
      rcases ha with rfl | ha | rfl
      · refine hturnU b c a (List.Sublist.cons _ ?_)
        simpa using List.Sublist.append h2 (List.Sublist.refl [a])
      · have hbc : lexLt c.1 b.1 := by
          have := hdU.sublist (List.Sublist.cons _ (h2.trans (List.sublist_append_left _ _)))
          exact (List.pairwise_cons.mp this).1 c (by simp)
        -- reflected, the lower point is above the line
        have hlow : 0 < ar f'.1 a.1 l'.1 := down a (by simpa using ha)
        have hbm : b ∈ M'.reverse := h2.subset (by simp)
        have hcm : c ∈ M'.reverse := h2.subset (by simp)
        have haP := hmL a (by simpa using ha)
        have g1 : 0 < ar b.1 c.1 l'.1 := by
          rw [← ar_cyc]; exact hturnU l' b c (List.Sublist.cons_cons _ (h2.trans (List.sublist_append_left _ _)))
        have g2 : 0 < ar b.1 c.1 f'.1 := hturnU b c f' (List.Sublist.cons _ (by simpa using List.Sublist.append h2 (List.Sublist.refl [f'])))
        have := above_lt (a := (refl b).1) (b := (refl c).1) (f := (refl l').1) (l := (refl f').1) (u := (refl a).1) (lexLe_reflect.mpr hbc.le)
          (lexLe_reflect.mpr (hltop a haP)) (lexLe_reflect.mpr (hfbot a haP)) (by rw [ar_refl]; exact g1) (by rw [ar_refl]; exact g2)
          (by rw [ar_refl, ar_cyc]; exact hlow)
        rwa [ar_refl] at this
      · rw [← ar_cyc]
        exact hturnU a b c (List.Sublist.cons_cons _ (h2.trans (List.sublist_append_left _ _)))
    | [_, _], [_], e, h1, h2 =>
      injection e with e1 e; injection e with e2 e; injection e with e3 _
      subst e1 e2 e3
      have hcm : c ∈ M'.reverse := h2.subset (by simp)
      have hcP := hmU c hcm
      have hu := up c hcm
      have hcl : lexLt c.1 l'.1 := (List.pairwise_cons.mp hdU).1 c (by simp [List.mem_reverse.mp hcm])
      have hfc : lexLt f'.1 c.1 := (List.pairwise_append.mp (List.pairwise_cons.mp hdU).2).2.2 c hcm f' (by simp)
      have hfl : lexLt f'.1 l'.1 := hfc.trans hcl
      have hab : lexLt a.1 b.1 := (List.pairwise_cons.mp (hdL.sublist h1)).1 b (by simp)
      -- where `a` and `b` are on the lower chain
      rw [List.cons_append] at h1
      rcases List.cons_sublist_cons'.mp h1 with h3 | ⟨rfl, h3⟩
      · obtain ⟨k1, k2, ek, hk1, hk2⟩ := List.sublist_append_iff.mp h3
        rcases List.sublist_singleton.mp hk2 with rfl | rfl
        · rw [List.append_nil] at ek
          subst ek
          have ha : a ∈ M.reverse := hk1.subset (by simp)
          have hb : b ∈ M.reverse := hk1.subset (by simp)
          have g1 : 0 < ar a.1 b.1 f'.1 := by rw [← ar_cyc]; exact hturnL f' a b (List.Sublist.cons_cons _ (hk1.trans (List.sublist_append_left _ _)))
          have g2 : 0 < ar a.1 b.1 l'.1 := hturnL a b l' (by rw [List.cons_append]; exact List.Sublist.cons _ (by simpa using List.Sublist.append hk1 (List.Sublist.refl [l'])))
          exact above_lt hab.le hfc.le hcl.le g1 g2 hu
        · have ek' : k1 = [a] ∧ l' = b := by
            match k1, ek with
            | [], ek => simp at ek
            | [_], ek => simp at ek; exact ⟨by rw [ek.1], ek.2.symm⟩
            | _ :: _ :: _, ek => simp at ek
          obtain ⟨rfl, rfl⟩ := ek'
          have ha : a ∈ M.reverse := hk1.subset (by simp)
          have hd := down a ha
          -- around the last point
          have := to_lt (p := l'.1) (a := c.1) (d := f'.1) (b := a.1) hcl hfl hab
            (by have : ar l'.1 c.1 f'.1 = ar f'.1 l'.1 c.1 := (ar_cyc _ _ _).symm
                rw [this]; exact hu) (by have : ar l'.1 f'.1 a.1 = ar f'.1 a.1 l'.1 := ar_cyc _ _ _
                                         rw [this]; exact hd)
          rw [ar_cyc]; exact this
      · have hb := h3.subset (List.mem_singleton.mpr rfl)
        rcases List.mem_append.mp hb with hb | hb
        · exact from_lt hab hfl hfc (down b hb) hu
        · rw [List.mem_singleton.mp hb]; exact hu
    | [_, _, _], [], e, h1, _ =>
      injection e with e1 e; injection e with e2 e; injection e with e3 _
      subst e1 e2 e3
      exact hturnL a b c h1
  · rintro ⟨a, b⟩ he q hq
    have e : (f' :: M.reverse) ++ ((l' :: M'.reverse) ++ [f']) = (f' :: M.reverse) ++ l' :: (M'.reverse ++ [f']) := by simp
    rw [e] at he
    obtain ⟨z, N, hN⟩ : ∃ z N, M'.reverse ++ [f'] = z :: N := by
      cases h : M'.reverse ++ [f'] with
      | nil => simp at h
      | cons z N => exact ⟨z, N, rfl⟩
    rw [hN, pairs_append, ← hN] at he
    rcases List.mem_append.mp he with he | he
    · obtain ⟨X, Y, hXY⟩ := mem_pairs he
      rw [hL] at hXY
      have := congrArg List.reverse hXY
      rw [List.reverse_reverse] at this
      exact hS.edge Y.reverse X.reverse a b (by rw [this]; simp) q hq
    · have he : (a, b) ∈ pairs (l' :: (M'.reverse ++ [f'])) := by
        rw [hN, pairs_cons, ← hN]; exact he
      obtain ⟨X, Y, hXY⟩ := mem_pairs he
      rw [hUr] at hXY
      have := congrArg List.reverse hXY
      rw [List.reverse_reverse] at this
      exact hedge2 Y.reverse X.reverse a b (by rw [this]; simp) q hq
end Verif.Geom
