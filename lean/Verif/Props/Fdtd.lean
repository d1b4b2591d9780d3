import Verif.Model.Fdtd

/-!
# C152: charge, magnetic flux and energy in a time step of the Maxwell solver
-/

namespace OpenMS.Fdtd

set_option linter.unusedSectionVars false

variable {K : Type*} [Field K]

/-! ### Loops -/

theorem mem_irange {a b x : ℤ} : x ∈ irange a b ↔ a ≤ x ∧ x < b := by
  unfold irange
  rw [List.mem_map]
  constructor
  · rintro ⟨n, hn, rfl⟩
    rw [List.mem_range] at hn
    omega
  · rintro ⟨h1, h2⟩
    exact ⟨(x - a).toNat, List.mem_range.2 (by omega), by omega⟩

theorem nodup_irange (a b : ℤ) : (irange a b).Nodup := by
  unfold irange
  exact List.nodup_range.map fun x y h => by simpa using h

theorem mem_cells {P : Par K} {c : Ix} : c ∈ cells P ↔
    (1 ≤ c.1 ∧ c.1 < P.pisize) ∧ (1 ≤ c.2.1 ∧ c.2.1 < P.pjsize) ∧ 1 ≤ c.2.2 ∧ c.2.2 < P.pksize := by
  obtain ⟨i, j, k⟩ := c
  simp only [cells, List.mem_flatMap, List.mem_map, mem_irange, Prod.mk.injEq]
  constructor
  · rintro ⟨i', hi, j', hj, k', hk, rfl, rfl, rfl⟩
    exact ⟨hi, hj, hk⟩
  · rintro ⟨hi, hj, hk⟩
    exact ⟨i, hi, j, hj, k, hk, rfl, rfl, rfl⟩

theorem nodup_cells (P : Par K) : (cells P).Nodup := by
  unfold cells
  refine List.nodup_flatMap.2 ⟨fun i _ => List.nodup_flatMap.2 ⟨fun j _ => ?_, ?_⟩, ?_⟩
  · exact (nodup_irange _ _).map fun x y h => by simpa using h
  · refine (nodup_irange _ _).imp ?_
    intro a b hab
    rw [Function.onFun, List.disjoint_left]
    intro c h1 h2
    obtain ⟨_, _, rfl⟩ := List.mem_map.1 h1
    obtain ⟨_, _, h⟩ := List.mem_map.1 h2
    simp only [Prod.mk.injEq] at h
    exact hab h.2.1.symm
  · refine (nodup_irange _ _).imp ?_
    intro a b hab
    rw [Function.onFun, List.disjoint_left]
    intro c h1 h2
    obtain ⟨_, _, h1⟩ := List.mem_flatMap.1 h1
    obtain ⟨_, _, rfl⟩ := List.mem_map.1 h1
    obtain ⟨_, _, h2⟩ := List.mem_flatMap.1 h2
    obtain ⟨_, _, h⟩ := List.mem_map.1 h2
    simp only [Prod.mk.injEq] at h
    exact hab h.1.symm

theorem sweep_not_mem {V : Type*} (f : Ix → V → V) (l : List Ix) (a : Ix → V) (c : Ix) (hc : c ∉ l) :
    sweep f l a c = a c := by
  unfold sweep
  induction l generalizing a with
  | nil => rfl
  | cons d l ih =>
    rw [List.mem_cons, not_or] at hc
    rw [List.foldl_cons, ih _ hc.2, Function.update_of_ne hc.1]

theorem sweep_mem {V : Type*} (f : Ix → V → V) (l : List Ix) (hl : l.Nodup) (a : Ix → V) (c : Ix)
    (hc : c ∈ l) : sweep f l a c = f c (a c) := by
  induction l generalizing a with
  | nil => simp at hc
  | cons d l ih =>
    obtain ⟨hd, hl⟩ := List.nodup_cons.1 hl
    rcases List.mem_cons.1 hc with rfl | h
    · have : sweep f (c :: l) a = sweep f l (Function.update a c (f c (a c))) := rfl
      rw [this, sweep_not_mem f l _ c hd, Function.update_self]
    · have : sweep f (d :: l) a = sweep f l (Function.update a d (f d (a d))) := rfl
      rw [this, ih hl _ h, Function.update_of_ne (by rintro rfl; exact hd h)]

/-- The order of the cells in the loop does not matter: the result of the whole loop at one
cell. -/
theorem sweep_cells {V : Type*} (P : Par K) (f : Ix → V → V) (a : Ix → V) (c : Ix) :
    sweep f (cells P) a c = if c ∈ cells P then f c (a c) else a c := by
  split_ifs with h
  · exact sweep_mem f _ (nodup_cells P) a c h
  · exact sweep_not_mem f _ a c h

/-! ### Copies at the boundary -/

theorem copies_apply {V : Type*} (l : List (Ix × Ix × (V → V → V)))
    (hd : ∀ w ∈ l, ∀ w' ∈ l, w.1 = w'.1 → w = w') (hs : ∀ w ∈ l, ∀ w' ∈ l, w.2.1 ≠ w'.1)
    (hf : ∀ w ∈ l, ∀ d s, w.2.2 (w.2.2 d s) s = w.2.2 d s) (a : Ix → V) :
    (∀ w ∈ l, copies l a w.1 = w.2.2 (a w.1) (a w.2.1)) ∧
      ∀ c, (∀ w ∈ l, c ≠ w.1) → copies l a c = a c := by
  induction l using List.reverseRecOn with
  | nil => exact ⟨by simp, fun c _ => rfl⟩
  | append_singleton l w ih =>
    have hl : ∀ w' ∈ l, w' ∈ l ++ [w] := fun w' h => List.mem_append_left _ h
    have hw : w ∈ l ++ [w] := List.mem_append_right _ List.mem_cons_self
    obtain ⟨ih1, ih2⟩ := ih (fun u hu v hv => hd u (hl u hu) v (hl v hv))
      (fun u hu v hv => hs u (hl u hu) v (hl v hv)) (fun u hu => hf u (hl u hu))
    have hstep : copies (l ++ [w]) a =
        Function.update (copies l a) w.1 (w.2.2 (copies l a w.1) (copies l a w.2.1)) := by
      unfold copies; rw [List.foldl_append]; rfl
    have hsrc : copies l a w.2.1 = a w.2.1 := ih2 _ fun w' h => hs w hw w' (hl w' h)
    have hself : copies (l ++ [w]) a w.1 = w.2.2 (a w.1) (a w.2.1) := by
      rw [hstep, Function.update_self, hsrc]
      by_cases hm : ∃ w' ∈ l, w.1 = w'.1
      · obtain ⟨w', h1, h2⟩ := hm
        have := hd w hw w' (hl w' h1) h2
        subst this
        rw [ih1 w h1, hf w hw]
      · push Not at hm
        rw [ih2 _ hm]
    refine ⟨?_, ?_⟩
    · intro u hu
      by_cases he : u.1 = w.1
      · rw [hd u hu w hw he]; exact hself
      · rw [hstep, Function.update_of_ne he]
        rcases List.mem_append.1 hu with h | h
        · exact ih1 u h
        · rw [List.mem_singleton] at h; subst h; exact absurd rfl he
    · intro c hc
      rw [hstep, Function.update_of_ne (hc w hw)]
      exact ih2 c fun w' h => hc w' (hl w' h)

theorem mem_pairs {p q : ℤ} {d : ℤ × ℤ} : d ∈ pairs p q ↔ (1 ≤ d.1 ∧ d.1 < p) ∧ 1 ≤ d.2 ∧ d.2 < q := by
  obtain ⟨j, k⟩ := d
  simp only [pairs, List.mem_flatMap, List.mem_map, mem_irange, Prod.mk.injEq]
  constructor
  · rintro ⟨j', hj, k', hk, rfl, rfl⟩; exact ⟨hj, hk⟩
  · rintro ⟨h1, h2⟩; exact ⟨j, h1, k, h2, rfl, rfl⟩

/-- Two assignments for every pair of loop variables. -/
theorem copies_pairs {V : Type*} (l : List (ℤ × ℤ)) (A B SA SB : ℤ × ℤ → Ix) (f g : V → V → V)
    (hA : Function.Injective A) (hB : Function.Injective B) (hAB : ∀ t u, A t ≠ B u)
    (h1 : ∀ t u, SA t ≠ A u) (h2 : ∀ t u, SA t ≠ B u) (h3 : ∀ t u, SB t ≠ A u) (h4 : ∀ t u, SB t ≠ B u)
    (hf : ∀ d s, f (f d s) s = f d s) (hg : ∀ d s, g (g d s) s = g d s) (a : Ix → V) :
    (∀ t ∈ l, copies (l.flatMap fun t => [(A t, SA t, f), (B t, SB t, g)]) a (A t) = f (a (A t)) (a (SA t))) ∧
    (∀ t ∈ l, copies (l.flatMap fun t => [(A t, SA t, f), (B t, SB t, g)]) a (B t) = g (a (B t)) (a (SB t))) ∧
    ∀ c, (∀ t ∈ l, c ≠ A t ∧ c ≠ B t) →
      copies (l.flatMap fun t => [(A t, SA t, f), (B t, SB t, g)]) a c = a c := by
  have hmem : ∀ w : Ix × Ix × (V → V → V), w ∈ (l.flatMap fun t => [(A t, SA t, f), (B t, SB t, g)]) ↔
      ∃ t ∈ l, w = (A t, SA t, f) ∨ w = (B t, SB t, g) := by
    intro w; simp only [List.mem_flatMap, List.mem_cons, List.not_mem_nil, or_false]
  obtain ⟨k1, k2⟩ := copies_apply (l.flatMap fun t => [(A t, SA t, f), (B t, SB t, g)])
    (by
      intro w hw w' hw' he
      obtain ⟨t, _, rfl | rfl⟩ := (hmem w).1 hw <;> obtain ⟨u, _, rfl | rfl⟩ := (hmem w').1 hw'
      · rw [hA he]
      · exact absurd he (hAB t u)
      · exact absurd he.symm (hAB u t)
      · rw [hB he])
    (by
      intro w hw w' hw'
      obtain ⟨t, _, rfl | rfl⟩ := (hmem w).1 hw <;> obtain ⟨u, _, rfl | rfl⟩ := (hmem w').1 hw'
      · exact h1 t u
      · exact h2 t u
      · exact h3 t u
      · exact h4 t u)
    (by
      intro w hw
      obtain ⟨t, _, rfl | rfl⟩ := (hmem w).1 hw
      · exact hf
      · exact hg) a
  refine ⟨fun t ht => ?_, fun t ht => ?_, fun c hc => k2 c fun w hw => ?_⟩
  · exact k1 _ ((hmem _).2 ⟨t, ht, Or.inl rfl⟩)
  · exact k1 _ ((hmem _).2 ⟨t, ht, Or.inr rfl⟩)
  · obtain ⟨t, ht, rfl | rfl⟩ := (hmem w).1 hw
    · exact (hc t ht).1
    · exact (hc t ht).2

theorem gammaEx_apply (P : Par K) (h1 : 1 ≤ P.isize) (e : Ix → EF K) :
    (∀ j k, 1 ≤ j → j < P.pjsize → 1 ≤ k → k < P.pksize →
      gammaEx P e (P.isize + 1, j, k) =
        { e (P.isize + 1, j, k) with y := (e (1, j, k)).y, z := (e (1, j, k)).z }) ∧
    ∀ c : Ix, c.1 ≠ 0 → c.1 ≠ P.isize + 1 → gammaEx P e c = e c := by
  obtain ⟨_, k2, k3⟩ := copies_pairs (V := EF K) (pairs P.pjsize P.pksize) (fun jk => (0, jk))
    (fun jk => (P.isize + 1, jk)) (fun jk => (P.isize, jk)) (fun jk => (1, jk))
    (fun d s => { d with x := s.x }) (fun d s => { d with y := s.y, z := s.z })
    (fun _ _ h => (Prod.mk.inj h).2) (fun _ _ h => (Prod.mk.inj h).2)
    (fun t u h => by have := (Prod.mk.inj h).1; omega) (fun t u h => by have := (Prod.mk.inj h).1; omega)
    (fun t u h => by have := (Prod.mk.inj h).1; omega) (fun t u h => by have := (Prod.mk.inj h).1; omega)
    (fun t u h => by have := (Prod.mk.inj h).1; omega) (fun _ _ => rfl) (fun _ _ => rfl) e
  refine ⟨fun j k a b c d => k2 (j, k) (mem_pairs.2 ⟨⟨a, b⟩, c, d⟩), fun c h0 hn => k3 c fun t _ => ⟨?_, ?_⟩⟩
  · rintro rfl; exact h0 rfl
  · rintro rfl; exact hn rfl

theorem gammaHx_apply (P : Par K) (h1 : 1 ≤ P.isize) (h : Ix → HF K) :
    (∀ j k, 1 ≤ j → j < P.pjsize → 1 ≤ k → k < P.pksize →
      gammaHx P h (0, j, k) =
        { h (0, j, k) with y := (h (P.isize, j, k)).y, z := (h (P.isize, j, k)).z }) ∧
    ∀ c : Ix, c.1 ≠ 0 → c.1 ≠ P.isize + 1 → gammaHx P h c = h c := by
  obtain ⟨_, k2, k3⟩ := copies_pairs (V := HF K) (pairs P.pjsize P.pksize) (fun jk => (P.isize + 1, jk))
    (fun jk => (0, jk)) (fun jk => (1, jk)) (fun jk => (P.isize, jk))
    (fun d s => { d with x := s.x }) (fun d s => { d with y := s.y, z := s.z })
    (fun _ _ h => (Prod.mk.inj h).2) (fun _ _ h => (Prod.mk.inj h).2)
    (fun t u h => by have := (Prod.mk.inj h).1; omega) (fun t u h => by have := (Prod.mk.inj h).1; omega)
    (fun t u h => by have := (Prod.mk.inj h).1; omega) (fun t u h => by have := (Prod.mk.inj h).1; omega)
    (fun t u h => by have := (Prod.mk.inj h).1; omega) (fun _ _ => rfl) (fun _ _ => rfl) h
  refine ⟨fun j k a b c d => k2 (j, k) (mem_pairs.2 ⟨⟨a, b⟩, c, d⟩), fun c h0 hn => k3 c fun t _ => ⟨?_, ?_⟩⟩
  · rintro rfl; exact hn rfl
  · rintro rfl; exact h0 rfl

theorem mk_ne {a b : ℤ} (hab : a ≠ b) (t u : ℤ × ℤ) : ((t.1, a, t.2) : Ix) ≠ (u.1, b, u.2) := fun h => by
  simp only [Prod.mk.injEq] at h; exact hab h.2.1

theorem mk_inj (a : ℤ) : Function.Injective fun t : ℤ × ℤ => ((t.1, a, t.2) : Ix) := fun t u h => by
  simp only [Prod.mk.injEq] at h; exact Prod.ext h.1 h.2.2

theorem gammaEy_apply (P : Par K) (h1 : 1 ≤ P.jsize) (e : Ix → EF K) :
    (∀ i k, 1 ≤ i → i < P.pisize → 1 ≤ k → k < P.pksize →
      gammaEy P e (i, P.jsize + 1, k) =
        { e (i, P.jsize + 1, k) with x := (e (i, 1, k)).x, z := (e (i, 1, k)).z }) ∧
    ∀ c : Ix, c.2.1 ≠ 0 → c.2.1 ≠ P.jsize + 1 → gammaEy P e c = e c := by
  obtain ⟨_, k2, k3⟩ := copies_pairs (V := EF K) (pairs P.pisize P.pksize) (fun t => (t.1, 0, t.2))
    (fun t => (t.1, P.jsize + 1, t.2)) (fun t => (t.1, P.jsize, t.2)) (fun t => (t.1, 1, t.2))
    (fun d s => { d with y := s.y }) (fun d s => { d with x := s.x, z := s.z })
    (mk_inj _) (mk_inj _) (mk_ne (by omega)) (mk_ne (by omega)) (mk_ne (by omega)) (mk_ne (by omega))
    (mk_ne (by omega)) (fun _ _ => rfl) (fun _ _ => rfl) e
  refine ⟨fun j k a b c d => k2 (j, k) (mem_pairs.2 ⟨⟨a, b⟩, c, d⟩), fun c h0 hn => k3 c fun t _ => ⟨?_, ?_⟩⟩
  · rintro rfl; exact h0 rfl
  · rintro rfl; exact hn rfl

theorem gammaHy_apply (P : Par K) (h1 : 1 ≤ P.jsize) (h : Ix → HF K) :
    (∀ i k, 1 ≤ i → i < P.pisize → 1 ≤ k → k < P.pksize →
      gammaHy P h (i, 0, k) =
        { h (i, 0, k) with x := (h (i, P.jsize, k)).x, z := (h (i, P.jsize, k)).z }) ∧
    ∀ c : Ix, c.2.1 ≠ 0 → c.2.1 ≠ P.jsize + 1 → gammaHy P h c = h c := by
  obtain ⟨_, k2, k3⟩ := copies_pairs (V := HF K) (pairs P.pisize P.pksize) (fun t => (t.1, P.jsize + 1, t.2))
    (fun t => (t.1, 0, t.2)) (fun t => (t.1, 1, t.2)) (fun t => (t.1, P.jsize, t.2))
    (fun d s => { d with y := s.y }) (fun d s => { d with x := s.x, z := s.z })
    (mk_inj _) (mk_inj _) (mk_ne (by omega)) (mk_ne (by omega)) (mk_ne (by omega)) (mk_ne (by omega))
    (mk_ne (by omega)) (fun _ _ => rfl) (fun _ _ => rfl) h
  refine ⟨fun j k a b c d => k2 (j, k) (mem_pairs.2 ⟨⟨a, b⟩, c, d⟩), fun c h0 hn => k3 c fun t _ => ⟨?_, ?_⟩⟩
  · rintro rfl; exact hn rfl
  · rintro rfl; exact h0 rfl

/-! ### One step at one cell -/

variable [DecidableEq K]

/-- The sizes set by `periodic_boundary`. -/
def Sized (P : Par K) : Prop :=
  (P.use_periodic_x = true → 1 ≤ P.isize ∧ P.pisize = P.isize + 1) ∧
    (P.use_periodic_y = true → 1 ≤ P.jsize ∧ P.pjsize = P.jsize + 1)

theorem propagate_E (P : Par K) (hP : Sized P) (s : St K) (c : Ix) (hc : c ∈ cells P) :
    (propagate P s).1 c = stepE P s.2 c (s.1 c) := by
  have hm := mem_cells.1 hc
  have h0 := sweep_cells P (stepE P s.2) s.1 c
  rw [if_pos hc] at h0
  have h1 : ∀ e : Ix → EF K, (if P.use_periodic_x then gammaEx P e else e) c = e c := by
    intro e
    split_ifs with hx
    · obtain ⟨a, b⟩ := hP.1 hx
      exact (gammaEx_apply P a e).2 c (by omega) (by omega)
    · rfl
  have h2 : ∀ e : Ix → EF K, (if P.use_periodic_y then gammaEy P e else e) c = e c := by
    intro e
    split_ifs with hy
    · obtain ⟨a, b⟩ := hP.2 hy
      exact (gammaEy_apply P a e).2 c (by omega) (by omega)
    · rfl
  unfold propagate
  dsimp only
  rw [h2, h1, h0]

theorem propagate_H (P : Par K) (hP : Sized P) (s : St K) (c : Ix) (hc : c ∈ cells P) :
    (propagate P s).2 c = stepH P (propagate P s).1 c (s.2 c) := by
  have hm := mem_cells.1 hc
  have h1 : ∀ e : Ix → HF K, (if P.use_periodic_x then gammaHx P e else e) c = e c := by
    intro e
    split_ifs with hx
    · obtain ⟨a, b⟩ := hP.1 hx
      exact (gammaHx_apply P a e).2 c (by omega) (by omega)
    · rfl
  have h2 : ∀ e : Ix → HF K, (if P.use_periodic_y then gammaHy P e else e) c = e c := by
    intro e
    split_ifs with hy
    · obtain ⟨a, b⟩ := hP.2 hy
      exact (gammaHy_apply P a e).2 c (by omega) (by omega)
    · rfl
  unfold propagate
  dsimp only
  rw [h2, h1, sweep_cells P, if_pos hc]

/-- A cell of the inner region whose magnetic field follows the curl of the electric field. -/
def PlainH (P : Par K) (c : Ix) : Prop := c ∈ cells P ∧ P.position c = true ∧ P.mepsilon c ≠ 1000

/-- A dielectric cell of the inner region. -/
def PlainE (P : Par K) (c : Ix) : Prop := c ∈ cells P ∧ P.position c = true ∧ P.mepsilon c = 0

theorem propagate_plainH (P : Par K) (hP : Sized P) (s : St K) (c : Ix) (hc : PlainH P c) :
    (propagate P s).2 c = normalH P (propagate P s).1 c (s.2 c) := by
  rw [propagate_H P hP s c hc.1, stepH]
  exact if_pos hc.2

theorem propagate_plainE (P : Par K) (hP : Sized P) (s : St K) (c : Ix) (hc : PlainE P c) :
    (propagate P s).1 c = normalE P s.2 c (s.1 c) := by
  rw [propagate_E P hP s c hc.1, stepE]
  exact if_pos hc.2

/-- **C152**: a time step does not change the magnetic flux out of a cell, whatever the electric
field and the (dielectric or metallic) material, on any non-uniform grid. -/
theorem flux_conserved (P : Par K) (hP : Sized P) (s : St K) (i j k : ℤ)
    (h0 : PlainH P (i, j, k)) (h1 : PlainH P (i + 1, j, k)) (h2 : PlainH P (i, j + 1, k))
    (h3 : PlainH P (i, j, k + 1)) :
    let div : (Ix → HF K) → K := fun h =>
      ((h (i + 1, j, k)).x - (h (i, j, k)).x) / P.ds_x + ((h (i, j + 1, k)).y - (h (i, j, k)).y) / P.ds_y +
        ((h (i, j, k + 1)).z - (h (i, j, k)).z) / P.ds_nz k
    div (propagate P s).2 = div s.2 := by
  dsimp only
  rw [propagate_plainH P hP s _ h0, propagate_plainH P hP s _ h1, propagate_plainH P hP s _ h2,
    propagate_plainH P hP s _ h3]
  simp only [normalH, curlEx, curlEy, curlEz]
  ring

/-- **C152**: a time step does not change the charge at a point between dielectric cells, on any
non-uniform grid and for any permittivities. -/
theorem charge_conserved (P : Par K) (hP : Sized P) (s : St K) (i j k : ℤ)
    (h0 : PlainE P (i, j, k)) (h1 : PlainE P (i - 1, j, k)) (h2 : PlainE P (i, j - 1, k))
    (h3 : PlainE P (i, j, k - 1)) (he : ∀ c, P.epsilonx c ≠ 0 ∧ P.epsilony c ≠ 0 ∧ P.epsilonz c ≠ 0) :
    let div : (Ix → EF K) → K := fun e =>
      (P.epsilonx (i, j, k) * (e (i, j, k)).x - P.epsilonx (i - 1, j, k) * (e (i - 1, j, k)).x) / P.ds_x +
      (P.epsilony (i, j, k) * (e (i, j, k)).y - P.epsilony (i, j - 1, k) * (e (i, j - 1, k)).y) / P.ds_y +
      (P.epsilonz (i, j, k) * (e (i, j, k)).z - P.epsilonz (i, j, k - 1) * (e (i, j, k - 1)).z) *
        (2 / (P.ds_nz (k - 1) + P.ds_nz k))
    div (propagate P s).1 = div s.1 := by
  have hm : ∀ (a b c d : K), a ≠ 0 → a * (b + c / a * d) = a * b + c * d := by
    intro a b c d ha; field_simp
  dsimp only
  rw [propagate_plainE P hP s _ h0, propagate_plainE P hP s _ h1, propagate_plainE P hP s _ h2,
    propagate_plainE P hP s _ h3]
  simp only [normalE]
  rw [hm _ _ _ _ (he _).1, hm _ _ _ _ (he _).1, hm _ _ _ _ (he _).2.1, hm _ _ _ _ (he _).2.1,
    hm _ _ _ _ (he _).2.2, hm _ _ _ _ (he _).2.2]
  simp only [curlHx, curlHy, curlHz]
  ring

/-! ### Energy -/

/-- The cells of the loops as a set. -/
noncomputable def box (P : Par K) : Finset Ix :=
  Finset.Ico 1 P.pisize ×ˢ Finset.Ico 1 P.pjsize ×ˢ Finset.Ico 1 P.pksize

theorem mem_box {P : Par K} {c : Ix} : c ∈ box P ↔ c ∈ cells P := by
  rw [mem_cells, box, Finset.mem_product, Finset.mem_product, Finset.mem_Ico, Finset.mem_Ico, Finset.mem_Ico]

theorem tele (p : ℤ) (hp : 1 ≤ p) (F : ℤ → K) : ∑ i ∈ Finset.Ico 1 p, (F (i + 1) - F i) = F p - F 1 := by
  induction p, hp using Int.leInduction with
  | base => simp
  | succ n hn ih =>
    have : Finset.Ico 1 (n + 1) = insert n (Finset.Ico 1 n) := by
      ext x; simp only [Finset.mem_Ico, Finset.mem_insert]; omega
    rw [this, Finset.sum_insert (by simp), ih]
    ring

/-- What the walls do to the fields: they are zero beyond a wall, or repeat. -/
structure Walls (P : Par K) (e : Ix → EF K) (h : Ix → HF K) : Prop where
  x : ∀ j k, 1 ≤ j → j < P.pjsize → 1 ≤ k → k < P.pksize →
    (h (0, j, k)).y * (e (1, j, k)).z = (h (P.pisize - 1, j, k)).y * (e (P.pisize, j, k)).z ∧
    (h (0, j, k)).z * (e (1, j, k)).y = (h (P.pisize - 1, j, k)).z * (e (P.pisize, j, k)).y
  y : ∀ i k, 1 ≤ i → i < P.pisize → 1 ≤ k → k < P.pksize →
    (h (i, 0, k)).z * (e (i, 1, k)).x = (h (i, P.pjsize - 1, k)).z * (e (i, P.pjsize, k)).x ∧
    (h (i, 0, k)).x * (e (i, 1, k)).z = (h (i, P.pjsize - 1, k)).x * (e (i, P.pjsize, k)).z
  z : ∀ i j, 1 ≤ i → i < P.pisize → 1 ≤ j → j < P.pjsize →
    (h (i, j, 0)).x * (e (i, j, 1)).y = (h (i, j, P.pksize - 1)).x * (e (i, j, P.pksize)).y ∧
    (h (i, j, 0)).y * (e (i, j, 1)).x = (h (i, j, P.pksize - 1)).y * (e (i, j, P.pksize)).x

/-- The discrete curls are adjoint to each other, with the volumes of the cells of the
non-uniform grid. -/
theorem curl_adjoint (P : Par K) (h1 : 1 ≤ P.pisize) (h2 : 1 ≤ P.pjsize) (h3 : 1 ≤ P.pksize)
    (hd : ∀ k, P.ds_nz k ≠ 0) (hd2 : ∀ k, P.ds_nz (k - 1) + P.ds_nz k ≠ 0) (hc : (2 : K) ≠ 0)
    (e : Ix → EF K) (h : Ix → HF K) (hw : Walls P e h) :
    ∑ c ∈ box P, ((P.ds_nz (c.2.2 - 1) + P.ds_nz c.2.2) / 2 *
        ((e c).x * curlHx P h c + (e c).y * curlHy P h c) + P.ds_nz c.2.2 * ((e c).z * curlHz P h c)) =
      ∑ c ∈ box P, (P.ds_nz c.2.2 * ((h c).x * curlEx P e c + (h c).y * curlEy P e c) +
        (P.ds_nz (c.2.2 - 1) + P.ds_nz c.2.2) / 2 * ((h c).z * curlEz P e c)) := by
  rw [← sub_eq_zero, ← Finset.sum_sub_distrib]
  -- fluxes of the energy
  let w : ℤ → K := fun k => (P.ds_nz (k - 1) + P.ds_nz k) / 2
  let Fx : ℤ → ℤ → ℤ → K := fun i j k =>
    ((h (i - 1, j, k)).y * (e (i, j, k)).z * P.ds_nz k - (h (i - 1, j, k)).z * (e (i, j, k)).y * w k) / P.ds_x
  let Fy : ℤ → ℤ → ℤ → K := fun i j k =>
    ((h (i, j - 1, k)).z * (e (i, j, k)).x * w k - (h (i, j - 1, k)).x * (e (i, j, k)).z * P.ds_nz k) / P.ds_y
  let Fz : ℤ → ℤ → ℤ → K := fun i j k =>
    (h (i, j, k - 1)).x * (e (i, j, k)).y - (h (i, j, k - 1)).y * (e (i, j, k)).x
  have hpt : ∀ c : Ix, ((P.ds_nz (c.2.2 - 1) + P.ds_nz c.2.2) / 2 *
        ((e c).x * curlHx P h c + (e c).y * curlHy P h c) + P.ds_nz c.2.2 * ((e c).z * curlHz P h c)) -
      (P.ds_nz c.2.2 * ((h c).x * curlEx P e c + (h c).y * curlEy P e c) +
        (P.ds_nz (c.2.2 - 1) + P.ds_nz c.2.2) / 2 * ((h c).z * curlEz P e c)) =
      (Fx (c.1 + 1) c.2.1 c.2.2 - Fx c.1 c.2.1 c.2.2) + (Fy c.1 (c.2.1 + 1) c.2.2 - Fy c.1 c.2.1 c.2.2) +
        (Fz c.1 c.2.1 (c.2.2 + 1) - Fz c.1 c.2.1 c.2.2) := by
    rintro ⟨i, j, k⟩
    dsimp only [Fx, Fy, Fz, w, curlHx, curlHy, curlHz, curlEx, curlEy, curlEz]
    have i1 : i + 1 - 1 = i := by omega
    have j1 : j + 1 - 1 = j := by omega
    have k1 : k + 1 - 1 = k := by omega
    rw [i1, j1, k1]
    have hk := hd k
    have hk2 := hd2 k
    have e1 : (P.ds_nz (k - 1) + P.ds_nz k) / 2 * (2 / (P.ds_nz (k - 1) + P.ds_nz k)) = 1 := by field_simp
    have e2 : P.ds_nz k * (P.ds_nz k)⁻¹ = 1 := mul_inv_cancel₀ hk
    generalize hg : 2 / (P.ds_nz (k - 1) + P.ds_nz k) = g at *
    generalize hwk : (P.ds_nz (k - 1) + P.ds_nz k) / 2 = wk at *
    have e3 : ∀ x : K, x / P.ds_nz k = x * (P.ds_nz k)⁻¹ := fun x => div_eq_mul_inv _ _
    simp only [e3]
    generalize (P.ds_nz k)⁻¹ = r at *
    linear_combination ((e (i, j, k)).y * ((h (i, j, k)).x - (h (i, j, k - 1)).x) -
      (e (i, j, k)).x * ((h (i, j, k)).y - (h (i, j, k - 1)).y)) * e1 +
      ((h (i, j, k)).x * ((e (i, j, k + 1)).y - (e (i, j, k)).y) -
        (h (i, j, k)).y * ((e (i, j, k + 1)).x - (e (i, j, k)).x)) * e2
  rw [Finset.sum_congr rfl fun c _ => hpt c, Finset.sum_add_distrib, Finset.sum_add_distrib]
  have sx : ∑ c ∈ box P, (Fx (c.1 + 1) c.2.1 c.2.2 - Fx c.1 c.2.1 c.2.2) = 0 := by
    rw [box, Finset.sum_product_right]
    apply Finset.sum_eq_zero
    rintro ⟨j, k⟩ hjk
    rw [Finset.mem_product, Finset.mem_Ico, Finset.mem_Ico] at hjk
    rw [tele P.pisize h1 fun i => Fx i j k]
    obtain ⟨a, b⟩ := hw.x j k hjk.1.1 hjk.1.2 hjk.2.1 hjk.2.2
    simp only [Fx, sub_self]
    rw [a, b, sub_self]
  have sy : ∑ c ∈ box P, (Fy c.1 (c.2.1 + 1) c.2.2 - Fy c.1 c.2.1 c.2.2) = 0 := by
    rw [box, Finset.sum_product]
    apply Finset.sum_eq_zero
    intro i hi
    rw [Finset.sum_product_right]
    apply Finset.sum_eq_zero
    intro k hk
    rw [Finset.mem_Ico] at hi hk
    rw [tele P.pjsize h2 fun j => Fy i j k]
    obtain ⟨a, b⟩ := hw.y i k hi.1 hi.2 hk.1 hk.2
    simp only [Fy, sub_self]
    rw [a, b, sub_self]
  have sz : ∑ c ∈ box P, (Fz c.1 c.2.1 (c.2.2 + 1) - Fz c.1 c.2.1 c.2.2) = 0 := by
    rw [box, Finset.sum_product]
    apply Finset.sum_eq_zero
    intro i hi
    rw [Finset.sum_product]
    apply Finset.sum_eq_zero
    intro j hj
    rw [Finset.mem_Ico] at hi hj
    rw [tele P.pksize h3 fun k => Fz i j k]
    obtain ⟨a, b⟩ := hw.z i j hi.1 hi.2 hj.1 hj.2
    simp only [Fz, sub_self]
    rw [a, b, sub_self]
  rw [sx, sy, sz]
  ring

/-- The electric field at the walls: zero beyond a wall, repeated in a periodic direction. -/
structure WallsE (P : Par K) (e : Ix → EF K) : Prop where
  x : ∀ j k, 1 ≤ j → j < P.pjsize → 1 ≤ k → k < P.pksize →
    (e (P.pisize, j, k)).y = (if P.use_periodic_x then (e (1, j, k)).y else 0) ∧
    (e (P.pisize, j, k)).z = (if P.use_periodic_x then (e (1, j, k)).z else 0)
  y : ∀ i k, 1 ≤ i → i < P.pisize → 1 ≤ k → k < P.pksize →
    (e (i, P.pjsize, k)).x = (if P.use_periodic_y then (e (i, 1, k)).x else 0) ∧
    (e (i, P.pjsize, k)).z = (if P.use_periodic_y then (e (i, 1, k)).z else 0)
  z : ∀ i j, 1 ≤ i → i < P.pisize → 1 ≤ j → j < P.pjsize →
    (e (i, j, P.pksize)).x = 0 ∧ (e (i, j, P.pksize)).y = 0

/-- The magnetic field at the walls. -/
structure WallsH (P : Par K) (h : Ix → HF K) : Prop where
  x : ∀ j k, 1 ≤ j → j < P.pjsize → 1 ≤ k → k < P.pksize →
    (h (0, j, k)).y = (if P.use_periodic_x then (h (P.pisize - 1, j, k)).y else 0) ∧
    (h (0, j, k)).z = (if P.use_periodic_x then (h (P.pisize - 1, j, k)).z else 0)
  y : ∀ i k, 1 ≤ i → i < P.pisize → 1 ≤ k → k < P.pksize →
    (h (i, 0, k)).x = (if P.use_periodic_y then (h (i, P.pjsize - 1, k)).x else 0) ∧
    (h (i, 0, k)).z = (if P.use_periodic_y then (h (i, P.pjsize - 1, k)).z else 0)
  z : ∀ i j, 1 ≤ i → i < P.pisize → 1 ≤ j → j < P.pjsize →
    (h (i, j, 0)).x = 0 ∧ (h (i, j, 0)).y = 0

theorem walls_of (P : Par K) (e : Ix → EF K) (h : Ix → HF K) (he : WallsE P e) (hh : WallsH P h) : Walls P e h := by
  refine ⟨fun j k a b c d => ?_, fun i k a b c d => ?_, fun i j a b c d => ?_⟩
  · obtain ⟨e1, e2⟩ := he.x j k a b c d
    obtain ⟨h1, h2⟩ := hh.x j k a b c d
    rw [e1, e2, h1, h2]
    cases P.use_periodic_x <;> simp
  · obtain ⟨e1, e2⟩ := he.y i k a b c d
    obtain ⟨h1, h2⟩ := hh.y i k a b c d
    rw [e1, e2, h1, h2]
    cases P.use_periodic_y <;> simp
  · obtain ⟨e1, e2⟩ := he.z i j a b c d
    obtain ⟨h1, h2⟩ := hh.z i j a b c d
    rw [e1, e2, h1, h2]
    simp

theorem propagate_E_out (P : Par K) (s : St K) (c : Ix) (hc : c ∉ cells P)
    (hx : P.use_periodic_x = true → 1 ≤ P.isize ∧ c.1 ≠ 0 ∧ c.1 ≠ P.isize + 1)
    (hy : P.use_periodic_y = true → 1 ≤ P.jsize ∧ c.2.1 ≠ 0 ∧ c.2.1 ≠ P.jsize + 1) :
    (propagate P s).1 c = s.1 c := by
  unfold propagate
  dsimp only
  have h1 : ∀ e : Ix → EF K, (if P.use_periodic_x then gammaEx P e else e) c = e c := by
    intro e
    split_ifs with h
    · obtain ⟨a, b, d⟩ := hx h
      exact (gammaEx_apply P a e).2 c b d
    · rfl
  have h2 : ∀ e : Ix → EF K, (if P.use_periodic_y then gammaEy P e else e) c = e c := by
    intro e
    split_ifs with h
    · obtain ⟨a, b, d⟩ := hy h
      exact (gammaEy_apply P a e).2 c b d
    · rfl
  rw [h2, h1, sweep_cells P, if_neg hc]

theorem propagate_H_out (P : Par K) (s : St K) (c : Ix) (hc : c ∉ cells P)
    (hx : P.use_periodic_x = true → 1 ≤ P.isize ∧ c.1 ≠ 0 ∧ c.1 ≠ P.isize + 1)
    (hy : P.use_periodic_y = true → 1 ≤ P.jsize ∧ c.2.1 ≠ 0 ∧ c.2.1 ≠ P.jsize + 1) :
    (propagate P s).2 c = s.2 c := by
  unfold propagate
  dsimp only
  have h1 : ∀ e : Ix → HF K, (if P.use_periodic_x then gammaHx P e else e) c = e c := by
    intro e
    split_ifs with h
    · obtain ⟨a, b, d⟩ := hx h
      exact (gammaHx_apply P a e).2 c b d
    · rfl
  have h2 : ∀ e : Ix → HF K, (if P.use_periodic_y then gammaHy P e else e) c = e c := by
    intro e
    split_ifs with h
    · obtain ⟨a, b, d⟩ := hy h
      exact (gammaHy_apply P a e).2 c b d
    · rfl
  rw [h2, h1, sweep_cells P, if_neg hc]

/-- The walls stay what they are during a step. -/
theorem wallsE_step (P : Par K) (hP : Sized P) (h1 : 1 < P.pisize)
    (s : St K) (he : WallsE P s.1) : WallsE P (propagate P s).1 := by
  refine ⟨fun j k a b c d => ?_, fun i k a b c d => ?_, fun i j a b c d => ?_⟩
  · by_cases hx : P.use_periodic_x = true
    · obtain ⟨i1, i2⟩ := hP.1 hx
      have key : ∀ e : Ix → EF K, ∀ i, (if P.use_periodic_y then gammaEy P e else e) (i, j, k) = e (i, j, k) := by
        intro e i
        split_ifs with hy
        · obtain ⟨j1, j2⟩ := hP.2 hy
          exact (gammaEy_apply P j1 e).2 _ (by dsimp only; omega) (by dsimp only; omega)
        · rfl
      have : (propagate P s).1 (P.pisize, j, k) =
          { sweep (stepE P s.2) (cells P) s.1 (P.pisize, j, k) with
            y := (sweep (stepE P s.2) (cells P) s.1 (1, j, k)).y
            z := (sweep (stepE P s.2) (cells P) s.1 (1, j, k)).z } := by
        unfold propagate
        dsimp only
        rw [key, if_pos hx, i2, (gammaEx_apply P i1 _).1 j k a b c d]
      have h' : (propagate P s).1 (1, j, k) = sweep (stepE P s.2) (cells P) s.1 (1, j, k) := by
        unfold propagate
        dsimp only
        rw [key, if_pos hx, (gammaEx_apply P i1 _).2 _ (by norm_num) (by dsimp only; omega)]
      rw [this, h', if_pos hx, if_pos hx]
      exact ⟨rfl, rfl⟩
    · have : (propagate P s).1 (P.pisize, j, k) = s.1 (P.pisize, j, k) := by
        apply propagate_E_out
        · rw [mem_cells]; dsimp only; omega
        · intro h; exact absurd h hx
        · intro h
          obtain ⟨j1, j2⟩ := hP.2 h
          exact ⟨j1, by dsimp only; omega, by dsimp only; omega⟩
      obtain ⟨e1, e2⟩ := he.x j k a b c d
      rw [this, e1, e2]
      simp [hx]
  · by_cases hy : P.use_periodic_y = true
    · obtain ⟨i1, i2⟩ := hP.2 hy
      have : ∀ e : Ix → EF K, ∃ e' : Ix → EF K, (if P.use_periodic_y then gammaEy P
          (if P.use_periodic_x then gammaEx P e else e) else (if P.use_periodic_x then gammaEx P e else e)) =
          gammaEy P e' := by
        intro e
        exact ⟨_, if_pos hy⟩
      obtain ⟨e', h'⟩ := this (sweep (stepE P s.2) (cells P) s.1)
      have hp : (propagate P s).1 = gammaEy P e' := h'
      rw [hp, if_pos hy, if_pos hy, i2, (gammaEy_apply P i1 _).1 i k a b c d,
        (gammaEy_apply P i1 _).2 (i, 1, k) (by norm_num) (by dsimp only; omega)]
      exact ⟨rfl, rfl⟩
    · have : (propagate P s).1 (i, P.pjsize, k) = s.1 (i, P.pjsize, k) := by
        apply propagate_E_out
        · rw [mem_cells]; dsimp only; omega
        · intro h
          obtain ⟨j1, j2⟩ := hP.1 h
          exact ⟨j1, by dsimp only; omega, by dsimp only; omega⟩
        · intro h; exact absurd h hy
      obtain ⟨e1, e2⟩ := he.y i k a b c d
      rw [this, e1, e2]
      simp [hy]
  · have : (propagate P s).1 (i, j, P.pksize) = s.1 (i, j, P.pksize) := by
      apply propagate_E_out
      · rw [mem_cells]; dsimp only; omega
      · intro h
        obtain ⟨j1, j2⟩ := hP.1 h
        exact ⟨j1, by dsimp only; omega, by dsimp only; omega⟩
      · intro h
        obtain ⟨j1, j2⟩ := hP.2 h
        exact ⟨j1, by dsimp only; omega, by dsimp only; omega⟩
    rw [this]
    exact he.z i j a b c d

theorem wallsH_step (P : Par K) (hP : Sized P) (h1 : 1 < P.pisize)
    (s : St K) (hh : WallsH P s.2) : WallsH P (propagate P s).2 := by
  refine ⟨fun j k a b c d => ?_, fun i k a b c d => ?_, fun i j a b c d => ?_⟩
  · by_cases hx : P.use_periodic_x = true
    · obtain ⟨i1, i2⟩ := hP.1 hx
      have key : ∀ e : Ix → HF K, ∀ i, (if P.use_periodic_y then gammaHy P e else e) (i, j, k) = e (i, j, k) := by
        intro e i
        split_ifs with hy
        · obtain ⟨j1, j2⟩ := hP.2 hy
          exact (gammaHy_apply P j1 e).2 _ (by dsimp only; omega) (by dsimp only; omega)
        · rfl
      have : ∃ h' : Ix → HF K, ∀ i, (propagate P s).2 (i, j, k) = gammaHx P h' (i, j, k) := by
        refine ⟨sweep (stepH P (propagate P s).1) (cells P) s.2, fun i => ?_⟩
        have : (propagate P s).2 = (if P.use_periodic_y then gammaHy P
          (if P.use_periodic_x then gammaHx P (sweep (stepH P (propagate P s).1) (cells P) s.2) else
            sweep (stepH P (propagate P s).1) (cells P) s.2) else
          (if P.use_periodic_x then gammaHx P (sweep (stepH P (propagate P s).1) (cells P) s.2) else
            sweep (stepH P (propagate P s).1) (cells P) s.2)) := rfl
        rw [this, key, if_pos hx]
      obtain ⟨h', hp⟩ := this
      rw [hp, hp, if_pos hx, if_pos hx, (gammaHx_apply P i1 h').1 j k a b c d,
        (gammaHx_apply P i1 h').2 (P.pisize - 1, j, k) (by dsimp only; omega) (by dsimp only; omega),
        i2, add_sub_cancel_right]
      exact ⟨rfl, rfl⟩
    · have : (propagate P s).2 (0, j, k) = s.2 (0, j, k) := by
        apply propagate_H_out
        · rw [mem_cells]; dsimp only; omega
        · intro h; exact absurd h hx
        · intro h
          obtain ⟨j1, j2⟩ := hP.2 h
          exact ⟨j1, by dsimp only; omega, by dsimp only; omega⟩
      obtain ⟨e1, e2⟩ := hh.x j k a b c d
      rw [this, e1, e2]
      simp [hx]
  · by_cases hy : P.use_periodic_y = true
    · obtain ⟨i1, i2⟩ := hP.2 hy
      have : ∃ h' : Ix → HF K, (propagate P s).2 = gammaHy P h' := ⟨_, if_pos hy⟩
      obtain ⟨h', hp⟩ := this
      rw [hp, if_pos hy, if_pos hy, (gammaHy_apply P i1 _).1 i k a b c d,
        (gammaHy_apply P i1 _).2 (i, P.pjsize - 1, k) (by dsimp only; omega) (by dsimp only; omega),
        i2, add_sub_cancel_right]
      exact ⟨rfl, rfl⟩
    · have : (propagate P s).2 (i, 0, k) = s.2 (i, 0, k) := by
        apply propagate_H_out
        · rw [mem_cells]; dsimp only; omega
        · intro h
          obtain ⟨j1, j2⟩ := hP.1 h
          exact ⟨j1, by dsimp only; omega, by dsimp only; omega⟩
        · intro h; exact absurd h hy
      obtain ⟨e1, e2⟩ := hh.y i k a b c d
      rw [this, e1, e2]
      simp [hy]
  · have : (propagate P s).2 (i, j, 0) = s.2 (i, j, 0) := by
      apply propagate_H_out
      · rw [mem_cells]; dsimp only; omega
      · intro h
        obtain ⟨j1, j2⟩ := hP.1 h
        exact ⟨j1, by dsimp only; omega, by dsimp only; omega⟩
      · intro h
        obtain ⟨j1, j2⟩ := hP.2 h
        exact ⟨j1, by dsimp only; omega, by dsimp only; omega⟩
    rw [this]
    exact hh.z i j a b c d

/-- The energy of the leapfrog scheme (divided by the area of a cell in the plane): the electric
part of one time plus the magnetic part as product of the fields half a step before and after it;
the volumes are those of the non-uniform grid around each component. -/
noncomputable def fieldEnergy (P : Par K) (s : St K) : K :=
  ∑ c ∈ box P,
    (P.eo / 2 * ((P.ds_nz (c.2.2 - 1) + P.ds_nz c.2.2) / 2 *
        (P.epsilonx c * (s.1 c).x ^ 2 + P.epsilony c * (s.1 c).y ^ 2) +
        P.ds_nz c.2.2 * (P.epsilonz c * (s.1 c).z ^ 2)) +
      P.uo * P.ups / 2 * (P.ds_nz c.2.2 *
        ((s.2 c).x * ((s.2 c).x + P.dt / P.uo / P.ups * curlEx P s.1 c) +
          (s.2 c).y * ((s.2 c).y + P.dt / P.uo / P.ups * curlEy P s.1 c)) +
        (P.ds_nz (c.2.2 - 1) + P.ds_nz c.2.2) / 2 *
          ((s.2 c).z * ((s.2 c).z + P.dt / P.uo / P.ups * curlEz P s.1 c))))

/-- **C152**: between walls and with periodic directions, in any dielectric and on any non-uniform
grid, a time step keeps the energy (and the walls), so every number of steps does. -/
theorem energy_conserved (P : Par K) (hP : Sized P) (h1 : 1 < P.pisize) (h2 : 1 < P.pjsize) (h3 : 1 ≤ P.pksize)
    (hm : ∀ c ∈ cells P, P.position c = true ∧ P.mepsilon c = 0) (hz : ((1000 : K) ≠ 0) ∧ (2 : K) ≠ 0)
    (hd : ∀ k, P.ds_nz k ≠ 0) (hd2 : ∀ k, P.ds_nz (k - 1) + P.ds_nz k ≠ 0)
    (hc : P.eo ≠ 0 ∧ P.uo ≠ 0 ∧ P.ups ≠ 0)
    (he : ∀ c, P.epsilonx c ≠ 0 ∧ P.epsilony c ≠ 0 ∧ P.epsilonz c ≠ 0) (s : St K)
    (hwe : WallsE P s.1) (hwh : WallsH P s.2) :
    WallsE P (propagate P s).1 ∧ WallsH P (propagate P s).2 ∧
      fieldEnergy P (propagate P s) = fieldEnergy P s := by
  have hwe' := wallsE_step P hP h1 s hwe
  have hwh' := wallsH_step P hP h1 s hwh
  refine ⟨hwe', hwh', ?_⟩
  obtain ⟨c1, c2, c3⟩ := hc
  have a1 := curl_adjoint P h1.le h2.le h3 hd hd2 hz.2 s.1 s.2 (walls_of P _ _ hwe hwh)
  have a2 := curl_adjoint P h1.le h2.le h3 hd hd2 hz.2 (propagate P s).1 s.2 (walls_of P _ _ hwe' hwh)
  rw [← sub_eq_zero] at a1 a2 ⊢
  rw [← Finset.sum_sub_distrib] at a1 a2
  have key : fieldEnergy P (propagate P s) - fieldEnergy P s = P.dt / 2 * (0 + 0) := by
    refine Eq.trans ?_ (congrArg₂ (fun u v => P.dt / 2 * (u + v)) a1 a2)
    unfold fieldEnergy
    rw [← Finset.sum_sub_distrib, ← Finset.sum_add_distrib, Finset.mul_sum]
    apply Finset.sum_congr rfl
    intro c hcb
    have hcc := mem_box.1 hcb
    obtain ⟨m1, m2⟩ := hm c hcc
    have hH := propagate_plainH P hP s c ⟨hcc, m1, by rw [m2]; exact Ne.symm hz.1⟩
    have hE := propagate_plainE P hP s c ⟨hcc, m1, m2⟩
    have ex : (s.1 c).x = ((propagate P s).1 c).x - P.dt / P.eo / P.epsilonx c * curlHx P s.2 c := by
      rw [hE]; simp only [normalE]; ring
    have ey : (s.1 c).y = ((propagate P s).1 c).y - P.dt / P.eo / P.epsilony c * curlHy P s.2 c := by
      rw [hE]; simp only [normalE]; ring
    have ez : (s.1 c).z = ((propagate P s).1 c).z - P.dt / P.eo / P.epsilonz c * curlHz P s.2 c := by
      rw [hE]; simp only [normalE]; ring
    have hx : ((propagate P s).2 c).x = (s.2 c).x - P.dt / P.uo / P.ups * curlEx P (propagate P s).1 c := by
      rw [hH]; rfl
    have hy : ((propagate P s).2 c).y = (s.2 c).y - P.dt / P.uo / P.ups * curlEy P (propagate P s).1 c := by
      rw [hH]; rfl
    have hz' : ((propagate P s).2 c).z = (s.2 c).z - P.dt / P.uo / P.ups * curlEz P (propagate P s).1 c := by
      rw [hH]; rfl
    rw [hx, hy, hz', ex, ey, ez]
    obtain ⟨e1, e2, e3⟩ := he c
    have h2' := hz.2
    generalize curlHx P s.2 c = chx
    generalize curlHy P s.2 c = chy
    generalize curlHz P s.2 c = chz
    generalize curlEx P s.1 c = cex
    generalize curlEy P s.1 c = cey
    generalize curlEz P s.1 c = cez
    generalize curlEx P (propagate P s).1 c = dex
    generalize curlEy P (propagate P s).1 c = dey
    generalize curlEz P (propagate P s).1 c = dez
    generalize ((propagate P s).1 c).x = x
    generalize ((propagate P s).1 c).y = y
    generalize ((propagate P s).1 c).z = z
    generalize (s.2 c).x = p
    generalize (s.2 c).y = q
    generalize (s.2 c).z = r
    generalize P.ds_nz (c.2.2 - 1) + P.ds_nz c.2.2 = w
    generalize P.ds_nz c.2.2 = d
    field_simp
    ring
  rw [key]
  ring

/-- The same after any number of steps. -/
theorem energy_conserved_iterate (P : Par K) (hP : Sized P) (h1 : 1 < P.pisize) (h2 : 1 < P.pjsize)
    (h3 : 1 ≤ P.pksize)
    (hm : ∀ c ∈ cells P, P.position c = true ∧ P.mepsilon c = 0) (hz : ((1000 : K) ≠ 0) ∧ (2 : K) ≠ 0)
    (hd : ∀ k, P.ds_nz k ≠ 0) (hd2 : ∀ k, P.ds_nz (k - 1) + P.ds_nz k ≠ 0)
    (hc : P.eo ≠ 0 ∧ P.uo ≠ 0 ∧ P.ups ≠ 0)
    (he : ∀ c, P.epsilonx c ≠ 0 ∧ P.epsilony c ≠ 0 ∧ P.epsilonz c ≠ 0) (s : St K)
    (hwe : WallsE P s.1) (hwh : WallsH P s.2) (n : ℕ) :
    WallsE P ((propagate P)^[n] s).1 ∧ WallsH P ((propagate P)^[n] s).2 ∧
      fieldEnergy P ((propagate P)^[n] s) = fieldEnergy P s := by
  induction n with
  | zero => exact ⟨hwe, hwh, rfl⟩
  | succ n ih =>
    obtain ⟨a, b, c⟩ := ih
    rw [Function.iterate_succ_apply']
    obtain ⟨a', b', c'⟩ := energy_conserved P hP h1 h2 h3 hm hz hd hd2 hc he _ a b
    exact ⟨a', b', c'.trans c⟩

/-! ### The Courant bound -/

section courant

variable {R : Type*} [Field R] [LinearOrder R] [IsStrictOrderedRing R]

theorem diff_sq_le {I : Type*} (S : Finset I) (X : I → I) (hX : ∀ F : I → R, ∑ c ∈ S, F (X c) = ∑ c ∈ S, F c)
    (u : I → R) : ∑ c ∈ S, (u (X c) - u c) ^ 2 ≤ 4 * ∑ c ∈ S, u c ^ 2 := by
  have h1 := hX (fun c => u c ^ 2)
  calc ∑ c ∈ S, (u (X c) - u c) ^ 2 ≤ ∑ c ∈ S, (2 * u (X c) ^ 2 + 2 * u c ^ 2) :=
        Finset.sum_le_sum fun c _ => by nlinarith [sq_nonneg (u (X c) + u c)]
    _ = 4 * ∑ c ∈ S, u c ^ 2 := by
        rw [Finset.sum_add_distrib, ← Finset.mul_sum, ← Finset.mul_sum, h1]
        ring

theorem cross_terms {I : Type*} (S : Finset I) (Y Z : I → I) (hY : ∀ F : I → R, ∑ c ∈ S, F (Y c) = ∑ c ∈ S, F c)
    (hZ : ∀ F : I → R, ∑ c ∈ S, F (Z c) = ∑ c ∈ S, F c) (hYZ : ∀ c, Y (Z c) = Z (Y c)) (v w : I → R) :
    ∑ c ∈ S, (w (Y c) - w c) * (v (Z c) - v c) =
      ∑ c ∈ S, (w (Y c) - w (Z (Y c))) * (v (Z c) - v (Z (Y c))) := by
  have a1 := hY (fun c => w c * v (Z c))
  have a2 := hZ (fun c => w (Y c) * v c)
  have a3 := hY (fun c => w (Z c) * v (Z c))
  have a4 := hZ (fun c => w c * v c)
  simp only [sub_mul, mul_sub, Finset.sum_sub_distrib]
  simp only [hYZ] at a1 a2 a3 a4
  linarith

/-- The curl on a torus is bounded by the gradient. -/
theorem curl_sq_le {I : Type*} (S : Finset I) (X Y Z : I → I)
    (hX : ∀ F : I → R, ∑ c ∈ S, F (X c) = ∑ c ∈ S, F c)
    (hY : ∀ F : I → R, ∑ c ∈ S, F (Y c) = ∑ c ∈ S, F c)
    (hZ : ∀ F : I → R, ∑ c ∈ S, F (Z c) = ∑ c ∈ S, F c)
    (hXY : ∀ c, X (Y c) = Y (X c)) (hXZ : ∀ c, X (Z c) = Z (X c)) (hYZ : ∀ c, Y (Z c) = Z (Y c))
    (a b d : R) (u v w : I → R) :
    ∑ c ∈ S, ((b * (w (Y c) - w c) - d * (v (Z c) - v c)) ^ 2 + (d * (u (Z c) - u c) - a * (w (X c) - w c)) ^ 2 +
        (a * (v (X c) - v c) - b * (u (Y c) - u c)) ^ 2) ≤
      4 * (a ^ 2 + b ^ 2 + d ^ 2) * ∑ c ∈ S, (u c ^ 2 + v c ^ 2 + w c ^ 2) := by
  have c1 := cross_terms S Y Z hY hZ hYZ v w
  have c2 := cross_terms S X Z hX hZ hXZ u w
  have c3 := cross_terms S X Y hX hY hXY u v
  have s1 := hX (fun c => (w (Y c) - w (Z (Y c))) * (v (Z c) - v (Z (Y c))))
  have s2 := hY (fun c => (w (X c) - w (Z (X c))) * (u (Z c) - u (Z (X c))))
  have s3 := hZ (fun c => (v (X c) - v (Y (X c))) * (u (Y c) - u (Y (X c))))
  simp only [hXY, hXZ, hYZ] at c1 c2 c3 s1 s2 s3
  -- squares of the divergence
  have q1 := (hZ (fun c => (u (Y c) - u (Y (X c))) ^ 2)).trans
    ((by simp only [hXY] : _ = ∑ c ∈ S, (u (Y c) - u (X (Y c))) ^ 2).trans (hY (fun c => (u c - u (X c)) ^ 2)))
  have q2 := (hZ (fun c => (v (X c) - v (Y (X c))) ^ 2)).trans (hX (fun c => (v c - v (Y c)) ^ 2))
  have q3 := (hY (fun c => (w (X c) - w (Z (X c))) ^ 2)).trans (hX (fun c => (w c - w (Z c)) ^ 2))
  simp only [hXY, hXZ, hYZ] at q1 q2 q3
  have hdiv : 0 ≤ ∑ c ∈ S, (a * (u (Z (Y c)) - u (Z (Y (X c)))) + b * (v (Z (X c)) - v (Z (Y (X c)))) +
      d * (w (Y (X c)) - w (Z (Y (X c))))) ^ 2 := Finset.sum_nonneg fun c _ => sq_nonneg _
  have hexp : ∑ c ∈ S, (a * (u (Z (Y c)) - u (Z (Y (X c)))) + b * (v (Z (X c)) - v (Z (Y (X c)))) +
      d * (w (Y (X c)) - w (Z (Y (X c))))) ^ 2 =
      a ^ 2 * ∑ c ∈ S, (u (Z (Y c)) - u (Z (Y (X c)))) ^ 2 + b ^ 2 * ∑ c ∈ S, (v (Z (X c)) - v (Z (Y (X c)))) ^ 2 +
      d ^ 2 * ∑ c ∈ S, (w (Y (X c)) - w (Z (Y (X c)))) ^ 2 +
      2 * (b * d) * ∑ c ∈ S, (w (Y (X c)) - w (Z (Y (X c)))) * (v (Z (X c)) - v (Z (Y (X c)))) +
      2 * (a * d) * ∑ c ∈ S, (w (Y (X c)) - w (Z (Y (X c)))) * (u (Z (Y c)) - u (Z (Y (X c)))) +
      2 * (a * b) * ∑ c ∈ S, (v (Z (X c)) - v (Z (Y (X c)))) * (u (Z (Y c)) - u (Z (Y (X c)))) := by
    simp only [Finset.mul_sum, ← Finset.sum_add_distrib]
    exact Finset.sum_congr rfl fun c _ => by ring
  have hL : ∑ c ∈ S, ((b * (w (Y c) - w c) - d * (v (Z c) - v c)) ^ 2 + (d * (u (Z c) - u c) - a * (w (X c) - w c)) ^ 2 +
        (a * (v (X c) - v c) - b * (u (Y c) - u c)) ^ 2) =
      a ^ 2 * (∑ c ∈ S, (w (X c) - w c) ^ 2 + ∑ c ∈ S, (v (X c) - v c) ^ 2) +
      b ^ 2 * (∑ c ∈ S, (w (Y c) - w c) ^ 2 + ∑ c ∈ S, (u (Y c) - u c) ^ 2) +
      d ^ 2 * (∑ c ∈ S, (v (Z c) - v c) ^ 2 + ∑ c ∈ S, (u (Z c) - u c) ^ 2) -
      2 * (b * d) * ∑ c ∈ S, (w (Y c) - w c) * (v (Z c) - v c) -
      2 * (a * d) * ∑ c ∈ S, (w (X c) - w c) * (u (Z c) - u c) -
      2 * (a * b) * ∑ c ∈ S, (v (X c) - v c) * (u (Y c) - u c) := by
    simp only [Finset.mul_sum, ← Finset.sum_add_distrib, ← Finset.sum_sub_distrib, mul_add]
    exact Finset.sum_congr rfl fun c _ => by ring
  have n1 : ∑ c ∈ S, (u c - u (X c)) ^ 2 = ∑ c ∈ S, (u (X c) - u c) ^ 2 :=
    Finset.sum_congr rfl fun c _ => by ring
  have n2 : ∑ c ∈ S, (v c - v (Y c)) ^ 2 = ∑ c ∈ S, (v (Y c) - v c) ^ 2 :=
    Finset.sum_congr rfl fun c _ => by ring
  have n3 : ∑ c ∈ S, (w c - w (Z c)) ^ 2 = ∑ c ∈ S, (w (Z c) - w c) ^ 2 :=
    Finset.sum_congr rfl fun c _ => by ring
  rw [hexp, q1, q2, q3, s1, s2, s3, ← c1, ← c2, ← c3, n1, n2, n3] at hdiv
  rw [hL]
  have ha := sq_nonneg a
  have hb := sq_nonneg b
  have hd := sq_nonneg d
  have e := fun t : I → R => mul_le_mul_of_nonneg_left (diff_sq_le S X hX t) ha
  have f := fun t : I → R => mul_le_mul_of_nonneg_left (diff_sq_le S Y hY t) hb
  have g := fun t : I → R => mul_le_mul_of_nonneg_left (diff_sq_le S Z hZ t) hd
  have hR : 4 * (a ^ 2 + b ^ 2 + d ^ 2) * ∑ c ∈ S, (u c ^ 2 + v c ^ 2 + w c ^ 2) =
      (a ^ 2 + b ^ 2 + d ^ 2) * (4 * ∑ c ∈ S, u c ^ 2) + (a ^ 2 + b ^ 2 + d ^ 2) * (4 * ∑ c ∈ S, v c ^ 2) +
        (a ^ 2 + b ^ 2 + d ^ 2) * (4 * ∑ c ∈ S, w c ^ 2) := by
    rw [Finset.sum_add_distrib, Finset.sum_add_distrib]
    ring
  rw [hR]
  have := e u; have := e v; have := e w
  have := f u; have := f v; have := f w
  have := g u; have := g v; have := g w
  linarith

/-- The next index on a circle of `N` indices. -/
def nxt (N i : ℤ) : ℤ := if i = N then 1 else i + 1

theorem sum_nxt (N : ℤ) (hN : 1 ≤ N) (F : ℤ → R) :
    ∑ i ∈ Finset.Ico 1 (N + 1), F (nxt N i) = ∑ i ∈ Finset.Ico 1 (N + 1), F i := by
  have h1 : Finset.Ico 1 (N + 1) = insert N (Finset.Ico 1 N) := by
    ext i; simp only [Finset.mem_Ico, Finset.mem_insert]; omega
  have h2 : N ∉ Finset.Ico 1 N := by simp
  have h3 := tele N hN F
  rw [h1, Finset.sum_insert h2, Finset.sum_insert h2, nxt, if_pos rfl]
  rw [Finset.sum_sub_distrib] at h3
  have h4 : ∑ i ∈ Finset.Ico 1 N, F (nxt N i) = ∑ i ∈ Finset.Ico 1 N, F (i + 1) :=
    Finset.sum_congr rfl fun i hi => by rw [nxt, if_neg (by rw [Finset.mem_Ico] at hi; omega)]
  rw [h4]
  linear_combination h3

/-- The curl of a field between the walls is bounded by four times the sum of the inverse squares
of the grid constants. -/
theorem curlE_sq_le [DecidableEq R] (P : Par R) (h1 : 1 < P.pisize) (h2 : 1 < P.pjsize) (h3 : 1 < P.pksize) (dz : R)
    (hu : ∀ k, P.ds_nz k = dz) (e : Ix → EF R) (he : WallsE P e) :
    ∑ c ∈ box P, (curlEx P e c ^ 2 + curlEy P e c ^ 2 + curlEz P e c ^ 2) ≤
      4 * ((1 / P.ds_x) ^ 2 + (1 / P.ds_y) ^ 2 + (1 / dz) ^ 2) *
        ∑ c ∈ box P, ((e c).x ^ 2 + (e c).y ^ 2 + (e c).z ^ 2) := by
  obtain ⟨Nx, hNx⟩ : ∃ N : ℤ, N = if P.use_periodic_x then P.pisize - 1 else P.pisize := ⟨_, rfl⟩
  obtain ⟨Ny, hNy⟩ : ∃ N : ℤ, N = if P.use_periodic_y then P.pjsize - 1 else P.pjsize := ⟨_, rfl⟩
  let Nz : ℤ := P.pksize
  have lx : 1 ≤ Nx ∧ P.pisize - 1 ≤ Nx := by rw [hNx]; split_ifs <;> omega
  have ly : 1 ≤ Ny ∧ P.pjsize - 1 ≤ Ny := by rw [hNy]; split_ifs <;> omega
  let S : Finset Ix := Finset.Ico 1 (Nx + 1) ×ˢ Finset.Ico 1 (Ny + 1) ×ˢ Finset.Ico 1 (Nz + 1)
  let X : Ix → Ix := fun c => (nxt Nx c.1, c.2.1, c.2.2)
  let Y : Ix → Ix := fun c => (c.1, nxt Ny c.2.1, c.2.2)
  let Z : Ix → Ix := fun c => (c.1, c.2.1, nxt Nz c.2.2)
  have hX : ∀ F : Ix → R, ∑ c ∈ S, F (X c) = ∑ c ∈ S, F c := by
    intro F
    simp only [S, Finset.sum_product, X]
    rw [sum_nxt Nx lx.1 (fun i => ∑ j ∈ Finset.Ico 1 (Ny + 1), ∑ k ∈ Finset.Ico 1 (Nz + 1), F (i, j, k))]
  have hY : ∀ F : Ix → R, ∑ c ∈ S, F (Y c) = ∑ c ∈ S, F c := by
    intro F
    simp only [S, Finset.sum_product, Y]
    refine Finset.sum_congr rfl fun i _ => ?_
    rw [sum_nxt Ny ly.1 (fun j => ∑ k ∈ Finset.Ico 1 (Nz + 1), F (i, j, k))]
  have hZ : ∀ F : Ix → R, ∑ c ∈ S, F (Z c) = ∑ c ∈ S, F c := by
    intro F
    simp only [S, Finset.sum_product, Z]
    refine Finset.sum_congr rfl fun i _ => Finset.sum_congr rfl fun j _ => ?_
    rw [sum_nxt Nz h3.le (fun k => F (i, j, k))]
  let cut : (Ix → R) → Ix → R := fun f c => if c ∈ box P then f c else 0
  let u := cut fun c => (e c).x
  let v := cut fun c => (e c).y
  let w := cut fun c => (e c).z
  have hbox : ∀ i j k : ℤ, (i, j, k) ∈ box P ↔
      (1 ≤ i ∧ i < P.pisize) ∧ (1 ≤ j ∧ j < P.pjsize) ∧ 1 ≤ k ∧ k < P.pksize := by
    intro i j k; rw [mem_box, mem_cells]
  have hsub : box P ⊆ S := by
    rintro ⟨i, j, k⟩ hc
    rw [hbox] at hc
    simp only [S, Finset.mem_product, Finset.mem_Ico, Nz]
    omega
  have key := curl_sq_le S X Y Z hX hY hZ (fun _ => rfl) (fun _ => rfl) (fun _ => rfl)
    (1 / P.ds_x) (1 / P.ds_y) (1 / dz) u v w
  have hin : ∀ f : Ix → R, ∀ c ∈ box P, cut f c = f c := fun f c hc => if_pos hc
  have hout : ∀ f : Ix → R, ∀ c, c ∉ box P → cut f c = 0 := fun f c hc => if_neg hc
  -- neighbours
  have nX : ∀ f : EF R → R, (f = EF.y ∨ f = EF.z) → ∀ i j k, (i, j, k) ∈ box P →
      cut (fun c => f (e c)) (X (i, j, k)) = f (e (i + 1, j, k)) := by
    intro f hf i j k hc
    have hc' := (hbox i j k).1 hc
    by_cases hi : i + 1 < P.pisize
    · have : X (i, j, k) = (i + 1, j, k) := by
        simp only [X, nxt]; rw [if_neg (by omega)]
      rw [this]
      exact hin (fun c => f (e c)) (i + 1, j, k) ((hbox (i + 1) (j) (k)).2 (by omega))
    · have hi' : i + 1 = P.pisize := by omega
      obtain ⟨w1, w2⟩ := he.x j k (by omega) (by omega) (by omega) (by omega)
      rw [hi']
      by_cases hp : P.use_periodic_x = true
      · rw [if_pos hp] at hNx w1 w2
        have : X (i, j, k) = (1, j, k) := by
          simp only [X, nxt]; rw [if_pos (by omega)]
        rw [this]
        refine (hin (fun c => f (e c)) (1, j, k) ((hbox (1) (j) (k)).2 (by omega))).trans ?_
        rcases hf with rfl | rfl
        · exact w1.symm
        · exact w2.symm
      · rw [if_neg hp] at hNx w1 w2
        have : X (i, j, k) = (i + 1, j, k) := by
          simp only [X, nxt]; rw [if_neg (by omega)]
        rw [this]
        refine (hout (fun c => f (e c)) (i + 1, j, k) (fun h => by rw [hbox] at h; omega)).trans ?_
        rcases hf with rfl | rfl
        · exact w1.symm
        · exact w2.symm
  have nY : ∀ f : EF R → R, (f = EF.x ∨ f = EF.z) → ∀ i j k, (i, j, k) ∈ box P →
      cut (fun c => f (e c)) (Y (i, j, k)) = f (e (i, j + 1, k)) := by
    intro f hf i j k hc
    have hc' := (hbox i j k).1 hc
    by_cases hi : j + 1 < P.pjsize
    · have : Y (i, j, k) = (i, j + 1, k) := by
        simp only [Y, nxt]; rw [if_neg (by omega)]
      rw [this]
      exact hin (fun c => f (e c)) (i, j + 1, k) ((hbox (i) (j + 1) (k)).2 (by omega))
    · have hi' : j + 1 = P.pjsize := by omega
      obtain ⟨w1, w2⟩ := he.y i k (by omega) (by omega) (by omega) (by omega)
      rw [hi']
      by_cases hp : P.use_periodic_y = true
      · rw [if_pos hp] at hNy w1 w2
        have : Y (i, j, k) = (i, 1, k) := by
          simp only [Y, nxt]; rw [if_pos (by omega)]
        rw [this]
        refine (hin (fun c => f (e c)) (i, 1, k) ((hbox (i) (1) (k)).2 (by omega))).trans ?_
        rcases hf with rfl | rfl
        · exact w1.symm
        · exact w2.symm
      · rw [if_neg hp] at hNy w1 w2
        have : Y (i, j, k) = (i, j + 1, k) := by
          simp only [Y, nxt]; rw [if_neg (by omega)]
        rw [this]
        refine (hout (fun c => f (e c)) (i, j + 1, k) (fun h => by rw [hbox] at h; omega)).trans ?_
        rcases hf with rfl | rfl
        · exact w1.symm
        · exact w2.symm
  have nZ : ∀ f : EF R → R, (f = EF.x ∨ f = EF.y) → ∀ i j k, (i, j, k) ∈ box P →
      cut (fun c => f (e c)) (Z (i, j, k)) = f (e (i, j, k + 1)) := by
    intro f hf i j k hc
    have hc' := (hbox i j k).1 hc
    have : Z (i, j, k) = (i, j, k + 1) := by
      simp only [Z, nxt, Nz]; rw [if_neg (by omega)]
    rw [this]
    by_cases hi : k + 1 < P.pksize
    · exact hin (fun c => f (e c)) (i, j, k + 1) ((hbox (i) (j) (k + 1)).2 (by omega))
    · have hi' : k + 1 = P.pksize := by omega
      obtain ⟨w1, w2⟩ := he.z i j (by omega) (by omega) (by omega) (by omega)
      rw [hi']
      refine (hout (fun c => f (e c)) (i, j, P.pksize) (fun h => by rw [hbox] at h; omega)).trans ?_
      rcases hf with rfl | rfl
      · exact w1.symm
      · exact w2.symm
  have hleft : ∑ c ∈ box P, (curlEx P e c ^ 2 + curlEy P e c ^ 2 + curlEz P e c ^ 2) ≤
      ∑ c ∈ S, ((1 / P.ds_y * (w (Y c) - w c) - 1 / dz * (v (Z c) - v c)) ^ 2 +
        (1 / dz * (u (Z c) - u c) - 1 / P.ds_x * (w (X c) - w c)) ^ 2 +
        (1 / P.ds_x * (v (X c) - v c) - 1 / P.ds_y * (u (Y c) - u c)) ^ 2) := by
    refine le_trans (le_of_eq (Finset.sum_congr rfl ?_)) (Finset.sum_le_sum_of_subset_of_nonneg hsub fun c _ _ => by positivity)
    rintro ⟨i, j, k⟩ hc
    have a1 : w (Y (i, j, k)) = _ := nY EF.z (Or.inr rfl) i j k hc
    have a2 : u (Y (i, j, k)) = _ := nY EF.x (Or.inl rfl) i j k hc
    have a3 : v (Z (i, j, k)) = _ := nZ EF.y (Or.inr rfl) i j k hc
    have a4 : u (Z (i, j, k)) = _ := nZ EF.x (Or.inl rfl) i j k hc
    have a5 : w (X (i, j, k)) = _ := nX EF.z (Or.inr rfl) i j k hc
    have a6 : v (X (i, j, k)) = _ := nX EF.y (Or.inl rfl) i j k hc
    have b1 : u (i, j, k) = (e (i, j, k)).x := hin (fun c => (e c).x) _ hc
    have b2 : v (i, j, k) = (e (i, j, k)).y := hin (fun c => (e c).y) _ hc
    have b3 : w (i, j, k) = (e (i, j, k)).z := hin (fun c => (e c).z) _ hc
    rw [a1, a2, a3, a4, a5, a6, b1, b2, b3]
    simp only [curlEx, curlEy, curlEz, hu]
    ring
  have hright : ∑ c ∈ S, (u c ^ 2 + v c ^ 2 + w c ^ 2) = ∑ c ∈ box P, ((e c).x ^ 2 + (e c).y ^ 2 + (e c).z ^ 2) := by
    rw [← Finset.sum_subset hsub (f := fun c => u c ^ 2 + v c ^ 2 + w c ^ 2)]
    · refine Finset.sum_congr rfl fun c hc => ?_
      have b1 : u c = (e c).x := hin (fun c => (e c).x) _ hc
      have b2 : v c = (e c).y := hin (fun c => (e c).y) _ hc
      have b3 : w c = (e c).z := hin (fun c => (e c).z) _ hc
      rw [b1, b2, b3]
    · intro c _ hc
      have b1 : u c = 0 := hout (fun c => (e c).x) _ hc
      have b2 : v c = 0 := hout (fun c => (e c).y) _ hc
      have b3 : w c = 0 := hout (fun c => (e c).z) _ hc
      rw [b1, b2, b3]
      ring
  rw [hright] at key
  exact hleft.trans key

/-- **C152**: on a uniform grid in any dielectric with relative permittivity at least `ε`, the fields
of all times are bounded by the energy of the initial state as long as
`dt² (1/dx² + 1/dy² + 1/dz²) ≤ ε₀ ε μ₀ μ` (the Courant condition). -/
theorem courant_bound [DecidableEq R] (P : Par R) (hP : Sized P) (h1 : 1 < P.pisize) (h2 : 1 < P.pjsize)
    (h3 : 1 < P.pksize) (dz : R) (hdz : 0 < dz) (hu : ∀ k, P.ds_nz k = dz)
    (hm : ∀ c ∈ cells P, P.position c = true ∧ P.mepsilon c = 0)
    (hc : 0 < P.eo ∧ 0 < P.uo ∧ 0 < P.ups) (ε : R) (hε : 0 < ε)
    (he : ∀ c, ε ≤ P.epsilonx c ∧ ε ≤ P.epsilony c ∧ ε ≤ P.epsilonz c) (s : St R)
    (hwe : WallsE P s.1) (hwh : WallsH P s.2) (n : ℕ) :
    let t := (propagate P)^[n] s
    dz * (P.eo * ε - P.dt ^ 2 / (P.uo * P.ups) * ((1 / P.ds_x) ^ 2 + (1 / P.ds_y) ^ 2 + (1 / dz) ^ 2)) *
        ∑ c ∈ box P, ((t.1 c).x ^ 2 + (t.1 c).y ^ 2 + (t.1 c).z ^ 2) +
      dz * (P.uo * P.ups) * ∑ c ∈ box P,
        (((t.2 c).x + P.dt / (2 * P.uo * P.ups) * curlEx P t.1 c) ^ 2 +
          ((t.2 c).y + P.dt / (2 * P.uo * P.ups) * curlEy P t.1 c) ^ 2 +
          ((t.2 c).z + P.dt / (2 * P.uo * P.ups) * curlEz P t.1 c) ^ 2) ≤
      2 * fieldEnergy P s := by
  intro t
  obtain ⟨c1, c2, c3⟩ := hc
  obtain ⟨w1, _, w3⟩ := energy_conserved_iterate P hP h1 h2 h3.le hm ⟨by norm_num, by norm_num⟩
    (fun k => by rw [hu]; exact hdz.ne') (fun k => by rw [hu, hu]; positivity)
    ⟨c1.ne', c2.ne', c3.ne'⟩
    (fun c => ⟨(hε.trans_le (he c).1).ne', (hε.trans_le (he c).2.1).ne', (hε.trans_le (he c).2.2).ne'⟩)
    s hwe hwh n
  have key := curlE_sq_le P h1 h2 h3 dz hu t.1 w1
  rw [← w3]
  change _ ≤ 2 * fieldEnergy P t
  have hk : 0 ≤ dz * (P.dt ^ 2 / (4 * (P.uo * P.ups))) := by positivity
  have key2 := mul_le_mul_of_nonneg_left key hk
  have hlow : dz * (P.eo * ε) * ∑ c ∈ box P, ((t.1 c).x ^ 2 + (t.1 c).y ^ 2 + (t.1 c).z ^ 2) +
      dz * (P.uo * P.ups) * ∑ c ∈ box P,
        (((t.2 c).x + P.dt / (2 * P.uo * P.ups) * curlEx P t.1 c) ^ 2 +
          ((t.2 c).y + P.dt / (2 * P.uo * P.ups) * curlEy P t.1 c) ^ 2 +
          ((t.2 c).z + P.dt / (2 * P.uo * P.ups) * curlEz P t.1 c) ^ 2) -
      dz * (P.dt ^ 2 / (4 * (P.uo * P.ups))) *
        ∑ c ∈ box P, (curlEx P t.1 c ^ 2 + curlEy P t.1 c ^ 2 + curlEz P t.1 c ^ 2) ≤ 2 * fieldEnergy P t := by
    unfold fieldEnergy
    simp only [Finset.mul_sum, ← Finset.sum_add_distrib, ← Finset.sum_sub_distrib]
    refine Finset.sum_le_sum fun c _ => ?_
    obtain ⟨e1, e2, e3⟩ := he c
    rw [hu, hu]
    have f : 0 ≤ dz * P.eo * ((P.epsilonx c - ε) * (t.1 c).x ^ 2 + (P.epsilony c - ε) * (t.1 c).y ^ 2 +
        (P.epsilonz c - ε) * (t.1 c).z ^ 2) := by
      have g1 := sub_nonneg.2 e1
      have g2 := sub_nonneg.2 e2
      have g3 := sub_nonneg.2 e3
      positivity
    rw [← sub_nonneg]
    refine f.trans_eq ?_
    have := c2.ne'
    have := c3.ne'
    generalize curlEx P t.1 c = cx
    generalize curlEy P t.1 c = cy
    generalize curlEz P t.1 c = cz
    field_simp
    ring
  have hring : ∀ A B : R, dz * (P.eo * ε - P.dt ^ 2 / (P.uo * P.ups) * B) * A =
      dz * (P.eo * ε) * A - dz * (P.dt ^ 2 / (4 * (P.uo * P.ups))) * (4 * B * A) := by
    intro A B; field_simp; try ring
  rw [hring]
  linarith

end courant

/-! ### Example -/

/-- A box of three cells in every direction, in vacuum, with time step 1/2, periodic along `x`. -/
def box3 : Par ℚ where
  dt := 1 / 2
  eo := 1
  uo := 1
  ups := 1
  ds_x := 1
  ds_y := 1
  ds_nz := fun _ => 1
  pisize := 4
  pjsize := 4
  pksize := 4
  isize := 3
  jsize := 3
  epsilonx := fun _ => 1
  epsilony := fun _ => 1
  epsilonz := fun c => if c = (2, 2, 2) then 4 else 1
  position := fun _ => true
  mepsilon := fun _ => 0
  momega := fun _ => 0
  mgamma := fun _ => 0
  dPx := fun _ => 0
  dPy := fun _ => 0
  dPz := fun _ => 0
  dPx_old := fun _ => 0
  dPy_old := fun _ => 0
  dPz_old := fun _ => 0
  aax := fun _ => 0
  aay := fun _ => 0
  aaz := fun _ => 0
  bbx := fun _ => 0
  bby := fun _ => 0
  bbz := fun _ => 0
  ccx := fun _ => 0
  ccy := fun _ => 0
  ccz := fun _ => 0
  ddx := fun _ => 0
  ddy := fun _ => 0
  ddz := fun _ => 0
  eex := fun _ => 0
  eey := fun _ => 0
  eez := fun _ => 0
  ffx := fun _ => 0
  ffy := fun _ => 0
  ffz := fun _ => 0
  ggx := fun _ => 0
  ggy := fun _ => 0
  ggz := fun _ => 0
  hhx := fun _ => 0
  hhy := fun _ => 0
  hhz := fun _ => 0
  iix := fun _ => 0
  iiy := fun _ => 0
  iiz := fun _ => 0
  jjx := fun _ => 0
  jjy := fun _ => 0
  jjz := fun _ => 0
  kkx := fun _ => 0
  kky := fun _ => 0
  kkz := fun _ => 0
  llx := fun _ => 0
  lly := fun _ => 0
  llz := fun _ => 0
  use_periodic_x := true
  use_periodic_y := false

/-- A field along `z` in the middle. -/
def spark : St ℚ :=
  (fun c => { x := 0, y := 0, z := if c = (2, 2, 2) then 1 else 0, Jx := 0, Jy := 0, Jz := 0, Dx := 0, Dy := 0, Dz := 0 },
    fun _ => { x := 0, y := 0, z := 0, Bx := 0, By := 0, Bz := 0 })

theorem spark_walls : WallsE box3 spark.1 ∧ WallsH box3 spark.2 := by
  refine ⟨⟨fun j k _ _ _ _ => ?_, fun i k _ _ _ _ => ?_, fun i j _ _ _ _ => ?_⟩,
    ⟨fun j k _ _ _ _ => ?_, fun i k _ _ _ _ => ?_, fun i j _ _ _ _ => ?_⟩⟩ <;>
  simp [box3, spark]

theorem box3_sized : Sized box3 := ⟨fun _ => ⟨by decide, rfl⟩, fun h => absurd h (by decide)⟩

/-- All hypotheses of the bound hold and its constant is positive: the time step 1/2 is stable. -/
example (n : ℕ) :
    let t := (propagate box3)^[n] spark
    (1 / 4 : ℚ) * ∑ c ∈ box box3, ((t.1 c).x ^ 2 + (t.1 c).y ^ 2 + (t.1 c).z ^ 2) ≤ 2 * fieldEnergy box3 spark := by
  intro t
  have h := courant_bound box3 box3_sized (by decide) (by decide) (by decide) 1 one_pos (fun _ => rfl)
    (fun _ _ => ⟨rfl, rfl⟩) ⟨one_pos, one_pos, one_pos⟩ 1 one_pos
    (fun c => ⟨le_refl _, le_refl _, by simp only [box3]; split_ifs <;> norm_num⟩) spark spark_walls.1 spark_walls.2 n
  dsimp only at h
  have h0 : 0 ≤ (1 : ℚ) * (box3.uo * box3.ups) * ∑ c ∈ box box3,
        (((t.2 c).x + box3.dt / (2 * box3.uo * box3.ups) * curlEx box3 t.1 c) ^ 2 +
          ((t.2 c).y + box3.dt / (2 * box3.uo * box3.ups) * curlEy box3 t.1 c) ^ 2 +
          ((t.2 c).z + box3.dt / (2 * box3.uo * box3.ups) * curlEz box3 t.1 c) ^ 2) := by
    refine mul_nonneg (by norm_num [box3]) (Finset.sum_nonneg fun c _ => by positivity)
  have hc : (1 : ℚ) * (box3.eo * 1 - box3.dt ^ 2 / (box3.uo * box3.ups) *
      ((1 / box3.ds_x) ^ 2 + (1 / box3.ds_y) ^ 2 + (1 / 1) ^ 2)) = 1 / 4 := by
    norm_num [box3]
  rw [hc] at h
  linarith

/-- The fields do change in the step, so the conservation laws say something. -/
example : ((propagate box3 spark).2 (2, 2, 2)).x = 1 / 2 := by
  have hm : ((2, 2, 2) : Ix) ∈ cells box3 := by rw [mem_cells]; decide
  have hm3 : ((2, 3, 2) : Ix) ∈ cells box3 := by rw [mem_cells]; decide
  have hm4 : ((2, 2, 3) : Ix) ∈ cells box3 := by rw [mem_cells]; decide
  have hE := fun c hc => propagate_plainE box3 box3_sized spark c ⟨hc, rfl, rfl⟩
  rw [propagate_plainH box3 box3_sized spark _ ⟨hm, rfl, by norm_num [box3]⟩]
  simp only [normalH, curlEx]
  norm_num only
  rw [hE _ hm, hE _ hm3, hE _ hm4]
  norm_num [normalE, curlHx, curlHy, curlHz, tus, box3, spark]

end OpenMS.Fdtd
