import Verif.Props.Fdtd
import Verif.Model.FdtdLayer

/-!
# C153: metals and absorbing layers in a time step of the Maxwell solver
-/

namespace OpenMS.Fdtd

set_option linter.unusedSectionVars false

variable {K : Type*} [Field K] [DecidableEq K]

/-! ### Metals -/

/-- Cells updated as a Drude metal. -/
def MetalE (P : Par K) (c : Ix) : Prop :=
  P.mepsilon c ≠ 0 ∧ P.mepsilon c ≠ 1000 ∧ ¬(P.position c = true ∧ P.mepsilon c = 100)

theorem stepE_metal (P : Par K) (h : Ix → HF K) (c : Ix) (v : EF K) (hc : MetalE P c) :
    stepE P h c v = metalE P h c v := by
  obtain ⟨h1, h2, h3⟩ := hc
  unfold stepE
  dsimp only
  rw [if_neg (fun h => h1 h.2), if_neg h3]
  by_cases hp : P.position c = true
  · rw [if_pos ⟨hp, h1, h2⟩]
  · rw [if_neg (fun h => hp h.1), if_pos ⟨by simpa using hp, h1, h2⟩]

/-- **C153**: the update of a metal cell solves the equations of a Drude metal, centred in time:
`ε₀ ε (E' - E)/dt = curl H - (J' + J)/2` and `(J' - J)/dt + γ (J' + J)/2 = ε₀ ω² (E' + E)/2`. -/
theorem metal_equations (P : Par K) (h2 : (2 : K) ≠ 0) (h : Ix → HF K) (c : Ix) (v : EF K) (hdt : P.dt ≠ 0)
    (hg : 2 + P.mgamma c * P.dt ≠ 0)
    (hb : 2 * P.eo * P.mepsilon c + P.dt * (P.momega c * P.momega c * P.eo * P.dt / (2 + P.mgamma c * P.dt)) ≠ 0) :
    let v' := metalE P h c v
    (P.eo * P.mepsilon c * ((v'.x - v.x) / P.dt) = curlHx P h c - (v'.Jx + v.Jx) / 2 ∧
      P.eo * P.mepsilon c * ((v'.y - v.y) / P.dt) = curlHy P h c - (v'.Jy + v.Jy) / 2 ∧
      P.eo * P.mepsilon c * ((v'.z - v.z) / P.dt) = curlHz P h c - (v'.Jz + v.Jz) / 2) ∧
    (v'.Jx - v.Jx) / P.dt + P.mgamma c * ((v'.Jx + v.Jx) / 2) = P.eo * P.momega c ^ 2 * ((v'.x + v.x) / 2) ∧
      (v'.Jy - v.Jy) / P.dt + P.mgamma c * ((v'.Jy + v.Jy) / 2) = P.eo * P.momega c ^ 2 * ((v'.y + v.y) / 2) ∧
      (v'.Jz - v.Jz) / P.dt + P.mgamma c * ((v'.Jz + v.Jz) / 2) = P.eo * P.momega c ^ 2 * ((v'.z + v.z) / 2) := by
  have key : ∀ (x J C m g w eo dt : K), dt ≠ 0 → 2 + g * dt ≠ 0 → 2 * eo * m + dt * (w * w * eo * dt / (2 + g * dt)) ≠ 0 →
      let km := (2 - g * dt) / (2 + g * dt)
      let bm := w * w * eo * dt / (2 + g * dt)
      let x' := (2 * eo * m - dt * bm) / (2 * eo * m + dt * bm) * x +
        2 * dt / (2 * eo * m + dt * bm) * (C - 1 / 2 * (1 + km) * J)
      let J' := km * J + bm * (x' + x)
      eo * m * ((x' - x) / dt) = C - (J' + J) / 2 ∧
        (J' - J) / dt + g * ((J' + J) / 2) = eo * w ^ 2 * ((x' + x) / 2) := by
    intro x J C m g w eo dt hdt hg hb
    dsimp only
    obtain ⟨D, hD⟩ : ∃ D, D = 2 + g * dt := ⟨_, rfl⟩
    have hg' : g * dt = D - 2 := by rw [hD]; ring
    rw [← hD] at hg hb ⊢
    obtain ⟨b, hbm⟩ : ∃ b, b = w * w * eo * dt / D := ⟨_, rfl⟩
    rw [← hbm] at hb ⊢
    have hbD : b * D = w ^ 2 * eo * dt := by rw [hbm]; field_simp
    obtain ⟨F, hF⟩ : ∃ F, F = 2 * eo * m + dt * b := ⟨_, rfl⟩
    rw [← hF] at hb ⊢
    obtain ⟨k, hk⟩ : ∃ k, k = (2 - g * dt) / D := ⟨_, rfl⟩
    rw [← hk]
    have hkD : k * D = 4 - D := by rw [hk, hg']; field_simp; ring
    obtain ⟨x', hx'⟩ : ∃ x', x' = (2 * eo * m - dt * b) / F * x + 2 * dt / F * (C - 1 / 2 * (1 + k) * J) := ⟨_, rfl⟩
    rw [← hx']
    have hxF : x' * F = (2 * eo * m - dt * b) * x + dt * (2 * C - (1 + k) * J) := by
      rw [hx']; field_simp
    constructor
    · field_simp
      rw [hF] at hxF
      linear_combination hxF
    · have hDne := hg
      have : D * (2 * dt) * ((k * J + b * (x' + x) - J) / dt + g * ((k * J + b * (x' + x) + J) / 2)) =
          D * (2 * dt) * (eo * w ^ 2 * ((x' + x) / 2)) := by
        have e1 : D * (2 * dt) * ((k * J + b * (x' + x) - J) / dt + g * ((k * J + b * (x' + x) + J) / 2)) =
            2 * D * (k * J + b * (x' + x) - J) + (g * dt) * D * (k * J + b * (x' + x) + J) := by
          field_simp
        have e2 : D * (2 * dt) * (eo * w ^ 2 * ((x' + x) / 2)) = D * (w ^ 2 * eo * dt) * (x' + x) := by
          field_simp
        rw [e1, e2, hg', ← hbD]
        linear_combination (J * D) * hkD
      exact mul_left_cancel₀ (mul_ne_zero hDne (mul_ne_zero h2 hdt)) this
  intro v'
  have kx := key v.x v.Jx (curlHx P h c) (P.mepsilon c) (P.mgamma c) (P.momega c) P.eo P.dt hdt hg hb
  have ky := key v.y v.Jy (curlHy P h c) (P.mepsilon c) (P.mgamma c) (P.momega c) P.eo P.dt hdt hg hb
  have kz := key v.z v.Jz (curlHz P h c) (P.mepsilon c) (P.mgamma c) (P.momega c) P.eo P.dt hdt hg hb
  exact ⟨⟨kx.1, ky.1, kz.1⟩, kx.2, ky.2, kz.2⟩

/-- Energy with metals: in a metal cell the permittivity is that of the metal, and the current
carries the energy `J² / (2 ε₀ ω²)`. -/
noncomputable def drudeEnergy (P : Par K) (s : St K) : K :=
  ∑ c ∈ box P,
    (P.eo / 2 * ((P.ds_nz (c.2.2 - 1) + P.ds_nz c.2.2) / 2 *
        ((if P.mepsilon c = 0 then P.epsilonx c else P.mepsilon c) * (s.1 c).x ^ 2 +
          (if P.mepsilon c = 0 then P.epsilony c else P.mepsilon c) * (s.1 c).y ^ 2) +
        P.ds_nz c.2.2 * ((if P.mepsilon c = 0 then P.epsilonz c else P.mepsilon c) * (s.1 c).z ^ 2)) +
      P.uo * P.ups / 2 * (P.ds_nz c.2.2 *
        ((s.2 c).x * ((s.2 c).x + P.dt / P.uo / P.ups * curlEx P s.1 c) +
          (s.2 c).y * ((s.2 c).y + P.dt / P.uo / P.ups * curlEy P s.1 c)) +
        (P.ds_nz (c.2.2 - 1) + P.ds_nz c.2.2) / 2 *
          ((s.2 c).z * ((s.2 c).z + P.dt / P.uo / P.ups * curlEz P s.1 c))) +
      (if P.mepsilon c = 0 then 0 else
        ((P.ds_nz (c.2.2 - 1) + P.ds_nz c.2.2) / 2 * ((s.1 c).Jx ^ 2 + (s.1 c).Jy ^ 2) +
          P.ds_nz c.2.2 * (s.1 c).Jz ^ 2) / (2 * P.eo * P.momega c ^ 2)))

/-- The heat of one step: `dt γ J̄² / (ε₀ ω²)` in every metal cell, `J̄` the mean current. -/
noncomputable def heat (P : Par K) (s s' : St K) : K :=
  ∑ c ∈ box P, if P.mepsilon c = 0 then 0 else
    P.dt * P.mgamma c * ((P.ds_nz (c.2.2 - 1) + P.ds_nz c.2.2) / 2 *
        ((((s'.1 c).Jx + (s.1 c).Jx) / 2) ^ 2 + (((s'.1 c).Jy + (s.1 c).Jy) / 2) ^ 2) +
      P.ds_nz c.2.2 * (((s'.1 c).Jz + (s.1 c).Jz) / 2) ^ 2) / (P.eo * P.momega c ^ 2)

/-- Dielectric or metal. -/
def PlainOrMetal (P : Par K) (c : Ix) : Prop :=
  (P.position c = true ∧ P.mepsilon c = 0) ∨
    (MetalE P c ∧ P.momega c ≠ 0 ∧ 2 + P.mgamma c * P.dt ≠ 0 ∧
      2 * P.eo * P.mepsilon c + P.dt * (P.momega c * P.momega c * P.eo * P.dt / (2 + P.mgamma c * P.dt)) ≠ 0)

/-- **C153**: in a box of dielectrics and metals a time step turns energy into heat, and nothing
else. -/
theorem drude_energy (P : Par K) (hP : Sized P) (h1 : 1 < P.pisize) (h2 : 1 < P.pjsize) (h3 : 1 ≤ P.pksize)
    (hm : ∀ c ∈ cells P, PlainOrMetal P c) (hz : ((1000 : K) ≠ 0) ∧ (2 : K) ≠ 0)
    (hd : ∀ k, P.ds_nz k ≠ 0) (hd2 : ∀ k, P.ds_nz (k - 1) + P.ds_nz k ≠ 0)
    (hc : P.eo ≠ 0 ∧ P.uo ≠ 0 ∧ P.ups ≠ 0 ∧ P.dt ≠ 0)
    (he : ∀ c, P.epsilonx c ≠ 0 ∧ P.epsilony c ≠ 0 ∧ P.epsilonz c ≠ 0) (s : St K)
    (hwe : WallsE P s.1) (hwh : WallsH P s.2) :
    WallsE P (propagate P s).1 ∧ WallsH P (propagate P s).2 ∧
      drudeEnergy P (propagate P s) + heat P s (propagate P s) = drudeEnergy P s := by
  have hwe' := wallsE_step P hP h1 s hwe
  have hwh' := wallsH_step P hP h1 s hwh
  refine ⟨hwe', hwh', ?_⟩
  obtain ⟨c1, c2, c3, c4⟩ := hc
  have a1 := curl_adjoint P h1.le h2.le h3 hd hd2 hz.2 s.1 s.2 (walls_of P _ _ hwe hwh)
  have a2 := curl_adjoint P h1.le h2.le h3 hd hd2 hz.2 (propagate P s).1 s.2 (walls_of P _ _ hwe' hwh)
  rw [← sub_eq_zero] at a1 a2 ⊢
  rw [← Finset.sum_sub_distrib] at a1 a2
  have key : drudeEnergy P (propagate P s) + heat P s (propagate P s) - drudeEnergy P s = P.dt / 2 * (0 + 0) := by
    refine Eq.trans ?_ (congrArg₂ (fun u v => P.dt / 2 * (u + v)) a1 a2)
    unfold drudeEnergy heat
    rw [← Finset.sum_add_distrib, ← Finset.sum_sub_distrib, ← Finset.sum_add_distrib, Finset.mul_sum]
    apply Finset.sum_congr rfl
    intro c hcb
    have hcc := mem_box.1 hcb
    have hH : (propagate P s).2 c = normalH P (propagate P s).1 c (s.2 c) := by
      rcases hm c hcc with ⟨m1, m2⟩ | ⟨⟨m1, m2, _⟩, _⟩
      · exact propagate_plainH P hP s c ⟨hcc, m1, by rw [m2]; exact Ne.symm hz.1⟩
      · rw [propagate_H P hP s c hcc]
        unfold stepH
        dsimp only
        by_cases hp : P.position c = true
        · rw [if_pos ⟨hp, m2⟩]
        · rw [if_neg (fun h => hp h.1), if_pos ⟨by simpa using hp, m1, m2⟩]
    have hx : ((propagate P s).2 c).x = (s.2 c).x - P.dt / P.uo / P.ups * curlEx P (propagate P s).1 c := by
      rw [hH]; rfl
    have hy : ((propagate P s).2 c).y = (s.2 c).y - P.dt / P.uo / P.ups * curlEy P (propagate P s).1 c := by
      rw [hH]; rfl
    have hz' : ((propagate P s).2 c).z = (s.2 c).z - P.dt / P.uo / P.ups * curlEz P (propagate P s).1 c := by
      rw [hH]; rfl
    rw [hx, hy, hz']
    have h2' := hz.2
    -- one component of the electric field
    have comp : ∀ (ε x x' C J J' : K) (w : K),
        P.eo * ε * ((x' - x) / P.dt) = C → (P.eo / 2 * (w * (ε * x' ^ 2)) - P.eo / 2 * (w * (ε * x ^ 2))) =
          P.dt / 2 * (w * ((x + x') * C)) := by
      intro ε x x' C J J' w h
      rw [← h]
      field_simp
      ring
    have hmag : ∀ (w p C C' : K), P.uo * P.ups / 2 * (w * ((p - P.dt / P.uo / P.ups * C') * (p - P.dt / P.uo / P.ups * C' + P.dt / P.uo / P.ups * C'))) -
        P.uo * P.ups / 2 * (w * (p * (p + P.dt / P.uo / P.ups * C))) = - (P.dt / 2 * (w * (p * (C + C')))) := by
      intro w p C C'
      field_simp
      ring
    have q1 := hmag (P.ds_nz c.2.2) (s.2 c).x (curlEx P s.1 c) (curlEx P (propagate P s).1 c)
    have q2 := hmag (P.ds_nz c.2.2) (s.2 c).y (curlEy P s.1 c) (curlEy P (propagate P s).1 c)
    have q3 := hmag ((P.ds_nz (c.2.2 - 1) + P.ds_nz c.2.2) / 2) (s.2 c).z (curlEz P s.1 c) (curlEz P (propagate P s).1 c)
    rcases hm c hcc with ⟨m1, m2⟩ | ⟨m, m3, m4, m5⟩
    · have hE := propagate_plainE P hP s c ⟨hcc, m1, m2⟩
      obtain ⟨e1, e2, e3⟩ := he c
      have r1 := comp (P.epsilonx c) (s.1 c).x ((propagate P s).1 c).x (curlHx P s.2 c) 0 0
        ((P.ds_nz (c.2.2 - 1) + P.ds_nz c.2.2) / 2) (by rw [hE]; simp only [normalE]; field_simp; ring)
      have r2 := comp (P.epsilony c) (s.1 c).y ((propagate P s).1 c).y (curlHy P s.2 c) 0 0
        ((P.ds_nz (c.2.2 - 1) + P.ds_nz c.2.2) / 2) (by rw [hE]; simp only [normalE]; field_simp; ring)
      have r3 := comp (P.epsilonz c) (s.1 c).z ((propagate P s).1 c).z (curlHz P s.2 c) 0 0
        (P.ds_nz c.2.2) (by rw [hE]; simp only [normalE]; field_simp; ring)
      simp only [if_pos m2]
      linear_combination r1 + r2 + r3 + q1 + q2 + q3
    · have hE : (propagate P s).1 c = metalE P s.2 c (s.1 c) := by
        rw [propagate_E P hP s c hcc, stepE_metal P _ c _ m]
      obtain ⟨⟨x1, x2, x3⟩, y1, y2, y3⟩ := metal_equations P h2' s.2 c (s.1 c) c4 m4 m5
      rw [← hE] at x1 x2 x3 y1 y2 y3
      have r1 := comp (P.mepsilon c) (s.1 c).x ((propagate P s).1 c).x _ 0 0
        ((P.ds_nz (c.2.2 - 1) + P.ds_nz c.2.2) / 2) x1
      have r2 := comp (P.mepsilon c) (s.1 c).y ((propagate P s).1 c).y _ 0 0
        ((P.ds_nz (c.2.2 - 1) + P.ds_nz c.2.2) / 2) x2
      have r3 := comp (P.mepsilon c) (s.1 c).z ((propagate P s).1 c).z _ 0 0 (P.ds_nz c.2.2) x3
      have cur : ∀ (x x' J J' w : K), (J' - J) / P.dt + P.mgamma c * ((J' + J) / 2) = P.eo * P.momega c ^ 2 * ((x' + x) / 2) →
          w * J' ^ 2 / (2 * P.eo * P.momega c ^ 2) - w * J ^ 2 / (2 * P.eo * P.momega c ^ 2) +
            P.dt * P.mgamma c * (w * ((J' + J) / 2) ^ 2) / (P.eo * P.momega c ^ 2) =
          P.dt / 2 * (w * ((x + x') * ((J' + J) / 2))) := by
        intro x x' J J' w h
        have hx : x + x' = 2 * ((J' - J) / P.dt + P.mgamma c * ((J' + J) / 2)) / (P.eo * P.momega c ^ 2) := by
          rw [h]; field_simp; ring
        rw [hx]
        field_simp
        ring
      have t1 := cur _ _ _ _ ((P.ds_nz (c.2.2 - 1) + P.ds_nz c.2.2) / 2) y1
      have t2 := cur _ _ _ _ ((P.ds_nz (c.2.2 - 1) + P.ds_nz c.2.2) / 2) y2
      have t3 := cur _ _ _ _ (P.ds_nz c.2.2) y3
      simp only [if_neg m.1]
      linear_combination r1 + r2 + r3 + q1 + q2 + q3 + t1 + t2 + t3
  rw [key]
  ring

/-- **C153**: with damping constants that are not negative the energy never grows, over any number
of steps. -/
theorem drude_passive {R : Type*} [Field R] [LinearOrder R] [IsStrictOrderedRing R] (P : Par R) (hP : Sized P)
    (h1 : 1 < P.pisize) (h2 : 1 < P.pjsize) (h3 : 1 ≤ P.pksize) (hm : ∀ c ∈ cells P, PlainOrMetal P c)
    (hd : ∀ k, 0 < P.ds_nz k) (hc : 0 < P.eo ∧ 0 < P.uo ∧ 0 < P.ups ∧ 0 < P.dt)
    (he : ∀ c, P.epsilonx c ≠ 0 ∧ P.epsilony c ≠ 0 ∧ P.epsilonz c ≠ 0) (hg : ∀ c, 0 ≤ P.mgamma c) (s : St R)
    (hwe : WallsE P s.1) (hwh : WallsH P s.2) (n : ℕ) :
    WallsE P ((propagate P)^[n] s).1 ∧ WallsH P ((propagate P)^[n] s).2 ∧
      drudeEnergy P ((propagate P)^[n + 1] s) ≤ drudeEnergy P ((propagate P)^[n] s) ∧
      drudeEnergy P ((propagate P)^[n] s) ≤ drudeEnergy P s := by
  have step : ∀ s : St R, WallsE P s.1 → WallsH P s.2 → WallsE P (propagate P s).1 ∧ WallsH P (propagate P s).2 ∧
      drudeEnergy P (propagate P s) ≤ drudeEnergy P s := by
    intro s hwe hwh
    obtain ⟨a, b, c⟩ := drude_energy P hP h1 h2 h3 hm ⟨by norm_num, by norm_num⟩ (fun k => (hd k).ne')
      (fun k => (add_pos (hd _) (hd _)).ne') ⟨hc.1.ne', hc.2.1.ne', hc.2.2.1.ne', hc.2.2.2.ne'⟩ he s hwe hwh
    refine ⟨a, b, ?_⟩
    have : 0 ≤ heat P s (propagate P s) := by
      refine Finset.sum_nonneg fun c _ => ?_
      split_ifs
      · exact le_refl _
      · have d1 := hd (c.2.2 - 1)
        have d2 := hd c.2.2
        have d3 := hg c
        obtain ⟨e1, e2, e3, e4⟩ := hc
        positivity
    linarith
  induction n with
  | zero => exact ⟨hwe, hwh, (step s hwe hwh).2.2, le_refl _⟩
  | succ n ih =>
    obtain ⟨a, b, c, d⟩ := ih
    have e := step _ a b
    rw [← Function.iterate_succ_apply' (propagate P) n s] at e
    have f := (step _ e.1 e.2.1).2.2
    rw [← Function.iterate_succ_apply' (propagate P) (n + 1) s] at f
    exact ⟨e.1, e.2.1, f, e.2.2.trans d⟩

/-! ### Absorbing layers -/

/-- The loops of `coefficient` reach all entries that belong to a cell of a layer. -/
theorem hits (P : Par K) (mi mj mk i j k : ℤ) (hi : 0 ≤ i ∧ i < mi) (hj : 0 ≤ j ∧ j < mj) (hk : 0 ≤ k ∧ k < mk)
    (hp : P.position (i, j, k) = false) :
    hitX P mi mj mk i = true ∧ hitY P mi mj mk j = true ∧ hitZ P mi mj mk k = true := by
  refine ⟨?_, ?_, ?_⟩
  · simp only [hitX, Bool.and_eq_true, decide_eq_true_eq, List.any_eq_true]
    exact ⟨hi, j, mem_irange.2 hj, k, mem_irange.2 hk, by rw [hp]; rfl⟩
  · simp only [hitY, Bool.and_eq_true, decide_eq_true_eq, List.any_eq_true]
    exact ⟨hj, i, mem_irange.2 hi, k, mem_irange.2 hk, by rw [hp]; rfl⟩
  · simp only [hitZ, Bool.and_eq_true, decide_eq_true_eq, List.any_eq_true]
    exact ⟨hk, i, mem_irange.2 hi, j, mem_irange.2 hj, by rw [hp]; rfl⟩

/-- First equation of a layer. -/
theorem layer_D (eo dt κ σ D C : K) (h2 : (2 : K) ≠ 0) (heo : eo ≠ 0) (hdt : dt ≠ 0) (h : 2 * eo * κ + dt * σ ≠ 0) :
    let D' := (2 * eo * κ - dt * σ) / (2 * eo * κ + dt * σ) * D + (2 * eo * dt) / (2 * eo * κ + dt * σ) * C
    κ * ((D' - D) / dt) + σ / eo * ((D' + D) / 2) = C := by
  dsimp only
  obtain ⟨F, hF⟩ : ∃ F, F = 2 * eo * κ + dt * σ := ⟨_, rfl⟩
  rw [← hF] at h ⊢
  obtain ⟨D', hD⟩ : ∃ D', D' = (2 * eo * κ - dt * σ) / F * D + 2 * eo * dt / F * C := ⟨_, rfl⟩
  rw [← hD]
  have : D' * F = (2 * eo * κ - dt * σ) * D + 2 * eo * dt * C := by rw [hD]; field_simp
  rw [hF] at this
  field_simp
  linear_combination this

/-- Second equation of a layer. -/
theorem layer_E (eo dt κ σ κ' σ' ε x D D' : K) (h2 : (2 : K) ≠ 0) (heo : eo ≠ 0) (hdt : dt ≠ 0) (hε : ε ≠ 0)
    (h : 2 * eo * κ + dt * σ ≠ 0) :
    let x' := (2 * eo * κ - dt * σ) / (2 * eo * κ + dt * σ) * x + 2 / (2 * eo * κ + dt * σ) / ε *
      ((κ' + dt * σ' / 2 / eo) * D' - (κ' - dt * σ' / 2 / eo) * D)
    eo * ε * (κ * ((x' - x) / dt) + σ / eo * ((x' + x) / 2)) = κ' * ((D' - D) / dt) + σ' / eo * ((D' + D) / 2) := by
  dsimp only
  obtain ⟨F, hF⟩ : ∃ F, F = 2 * eo * κ + dt * σ := ⟨_, rfl⟩
  rw [← hF] at h ⊢
  obtain ⟨R, hR⟩ : ∃ R, R = (κ' + dt * σ' / 2 / eo) * D' - (κ' - dt * σ' / 2 / eo) * D := ⟨_, rfl⟩
  rw [← hR]
  obtain ⟨x', hx⟩ : ∃ x', x' = (2 * eo * κ - dt * σ) / F * x + 2 / F / ε * R := ⟨_, rfl⟩
  rw [← hx]
  have : x' * F * ε = (2 * eo * κ - dt * σ) * x * ε + 2 * R := by rw [hx]; field_simp
  have hR' : R * (2 * eo) = 2 * eo * κ' * (D' - D) + dt * σ' * (D' + D) := by rw [hR]; field_simp; ring
  rw [hF] at this
  field_simp
  linear_combination eo * this + hR'

/-- **C153**: in a cell of a layer the electric update with the coefficients of `coefficient`
solves the equations of a uniaxial absorbing layer, centred in time, with the conductivities taken at
the place of each component: `κy dD/dt + (σy/ε₀) D = curl H` and
`ε₀ ε (κz dE/dt + (σz/ε₀) E) = κx dD/dt + (σx/ε₀) D`, and cyclic. -/
theorem layer_electric (P : Par K) (h2 : (2 : K) ≠ 0) (kx ky kz : K) (sx sy sz : K → K) (mi mj mk i j k : ℤ)
    (hi : 0 ≤ i ∧ i < mi) (hj : 0 ≤ j ∧ j < mj) (hk : 0 ≤ k ∧ k < mk) (hp : P.position (i, j, k) = false)
    (heo : P.eo ≠ 0) (hdt : P.dt ≠ 0)
    (he : P.epsilonx (i, j, k) ≠ 0 ∧ P.epsilony (i, j, k) ≠ 0 ∧ P.epsilonz (i, j, k) ≠ 0)
    (hx : 2 * P.eo * kx + P.dt * sx i ≠ 0) (hy : 2 * P.eo * ky + P.dt * sy j ≠ 0) (hz : 2 * P.eo * kz + P.dt * sz k ≠ 0)
    (h : Ix → HF K) (v : EF K) :
    let v' := pmlE (coefficient kx ky kz sx sy sz mi mj mk P) h (i, j, k) v
    let dt := fun a' a : K => (a' - a) / P.dt
    let mean := fun a' a : K => (a' + a) / 2
    (ky * dt v'.Dx v.Dx + sy j / P.eo * mean v'.Dx v.Dx = curlHx P h (i, j, k) ∧
      kz * dt v'.Dy v.Dy + sz k / P.eo * mean v'.Dy v.Dy = curlHy P h (i, j, k) ∧
      kx * dt v'.Dz v.Dz + sx i / P.eo * mean v'.Dz v.Dz = curlHz P h (i, j, k)) ∧
    P.eo * P.epsilonx (i, j, k) * (kz * dt v'.x v.x + sz k / P.eo * mean v'.x v.x) =
        kx * dt v'.Dx v.Dx + sx (i + 1 / 2) / P.eo * mean v'.Dx v.Dx ∧
      P.eo * P.epsilony (i, j, k) * (kx * dt v'.y v.y + sx i / P.eo * mean v'.y v.y) =
        ky * dt v'.Dy v.Dy + sy (j + 1 / 2) / P.eo * mean v'.Dy v.Dy ∧
      P.eo * P.epsilonz (i, j, k) * (ky * dt v'.z v.z + sy j / P.eo * mean v'.z v.z) =
        kz * dt v'.Dz v.Dz + sz (k + 1 / 2) / P.eo * mean v'.Dz v.Dz := by
  obtain ⟨aX, aY, aZ⟩ := hits P mi mj mk i j k hi hj hk hp
  have aC : (decide ((0 ≤ i ∧ i < mi) ∧ (0 ≤ j ∧ j < mj) ∧ 0 ≤ k ∧ k < mk) && !P.position (i, j, k)) = true := by
    rw [hp]; simp [hi, hj, hk]
  dsimp only
  simp only [pmlE, coefficient, aX, aY, aZ, aC, if_true]
  refine ⟨⟨layer_D _ _ _ _ _ _ h2 heo hdt hy, layer_D _ _ _ _ _ _ h2 heo hdt hz, layer_D _ _ _ _ _ _ h2 heo hdt hx⟩,
    layer_E _ _ _ _ _ _ _ _ _ _ h2 heo hdt he.1 hz, layer_E _ _ _ _ _ _ _ _ _ _ h2 heo hdt he.2.1 hx,
    layer_E _ _ _ _ _ _ _ _ _ _ h2 heo hdt he.2.2 hy⟩

/-- **C153**: the same for the magnetic update. -/
theorem layer_magnetic (P : Par K) (h2 : (2 : K) ≠ 0) (kx ky kz : K) (sx sy sz : K → K) (mi mj mk i j k : ℤ)
    (hi : 0 ≤ i ∧ i < mi) (hj : 0 ≤ j ∧ j < mj) (hk : 0 ≤ k ∧ k < mk) (hp : P.position (i, j, k) = false)
    (heo : P.eo ≠ 0) (hdt : P.dt ≠ 0) (hu : P.uo ≠ 0 ∧ P.ups ≠ 0)
    (hx : 2 * P.eo * kx + P.dt * sx (i + 1 / 2) ≠ 0) (hy : 2 * P.eo * ky + P.dt * sy (j + 1 / 2) ≠ 0)
    (hz : 2 * P.eo * kz + P.dt * sz (k + 1 / 2) ≠ 0) (e : Ix → EF K) (v : HF K) :
    let v' := pmlH (coefficient kx ky kz sx sy sz mi mj mk P) e (i, j, k) v
    let dt := fun a' a : K => (a' - a) / P.dt
    let mean := fun a' a : K => (a' + a) / 2
    (ky * dt v'.Bx v.Bx + sy (j + 1 / 2) / P.eo * mean v'.Bx v.Bx = -curlEx P e (i, j, k) ∧
      kz * dt v'.By v.By + sz (k + 1 / 2) / P.eo * mean v'.By v.By = -curlEy P e (i, j, k) ∧
      kx * dt v'.Bz v.Bz + sx (i + 1 / 2) / P.eo * mean v'.Bz v.Bz = -curlEz P e (i, j, k)) ∧
    P.uo * P.ups * (kz * dt v'.x v.x + sz (k + 1 / 2) / P.eo * mean v'.x v.x) =
        kx * dt v'.Bx v.Bx + sx i / P.eo * mean v'.Bx v.Bx ∧
      P.uo * P.ups * (kx * dt v'.y v.y + sx (i + 1 / 2) / P.eo * mean v'.y v.y) =
        ky * dt v'.By v.By + sy j / P.eo * mean v'.By v.By ∧
      P.uo * P.ups * (ky * dt v'.z v.z + sy (j + 1 / 2) / P.eo * mean v'.z v.z) =
        kz * dt v'.Bz v.Bz + sz k / P.eo * mean v'.Bz v.Bz := by
  obtain ⟨aX, aY, aZ⟩ := hits P mi mj mk i j k hi hj hk hp
  have first : ∀ (κ σ B C : K), 2 * P.eo * κ + P.dt * σ ≠ 0 →
      κ * (((2 * P.eo * κ - P.dt * σ) / (2 * P.eo * κ + P.dt * σ) * B - (2 * P.eo * P.dt) / (2 * P.eo * κ + P.dt * σ) * C - B) / P.dt) +
        σ / P.eo * (((2 * P.eo * κ - P.dt * σ) / (2 * P.eo * κ + P.dt * σ) * B -
          (2 * P.eo * P.dt) / (2 * P.eo * κ + P.dt * σ) * C + B) / 2) = -C := by
    intro κ σ B C hne
    have := layer_D P.eo P.dt κ σ B (-C) h2 heo hdt hne
    dsimp only at this
    rw [mul_neg, ← sub_eq_add_neg] at this
    exact this
  have second : ∀ (κ σ κ' σ' x B B' : K), 2 * P.eo * κ + P.dt * σ ≠ 0 →
      P.uo * P.ups * (κ * (((2 * P.eo * κ - P.dt * σ) / (2 * P.eo * κ + P.dt * σ) * x +
        2 * P.eo / (2 * P.eo * κ + P.dt * σ) / P.uo / P.ups *
          ((κ' + P.dt * σ' / 2 / P.eo) * B' - (κ' - P.dt * σ' / 2 / P.eo) * B) - x) / P.dt) +
        σ / P.eo * (((2 * P.eo * κ - P.dt * σ) / (2 * P.eo * κ + P.dt * σ) * x +
        2 * P.eo / (2 * P.eo * κ + P.dt * σ) / P.uo / P.ups *
          ((κ' + P.dt * σ' / 2 / P.eo) * B' - (κ' - P.dt * σ' / 2 / P.eo) * B) + x) / 2)) =
      κ' * ((B' - B) / P.dt) + σ' / P.eo * ((B' + B) / 2) := by
    intro κ σ κ' σ' x B B' hne
    have hμ : P.uo * P.ups / P.eo ≠ 0 := div_ne_zero (mul_ne_zero hu.1 hu.2) heo
    have := layer_E P.eo P.dt κ σ κ' σ' (P.uo * P.ups / P.eo) x B B' h2 heo hdt hμ hne
    dsimp only at this
    have hc : 2 / (2 * P.eo * κ + P.dt * σ) / (P.uo * P.ups / P.eo) =
        2 * P.eo / (2 * P.eo * κ + P.dt * σ) / P.uo / P.ups := by
      obtain ⟨u1, u2⟩ := hu
      field_simp
    rw [hc, mul_div_cancel₀ _ heo] at this
    exact this
  dsimp only
  simp only [pmlH, coefficient, aX, aY, aZ, if_true]
  exact ⟨⟨first _ _ _ _ hy, first _ _ _ _ hz, first _ _ _ _ hx⟩,
    second _ _ _ _ _ _ _ hz, second _ _ _ _ _ _ _ hx, second _ _ _ _ _ _ _ hy⟩

/-- **C153**: where no conductivity acts and the layer is not stretched, a cell of a layer is
updated like vacuum: the split into layers and inside changes nothing there. -/
theorem layer_transparent (P : Par K) (h2 : (2 : K) ≠ 0) (sx sy sz : K → K) (mi mj mk i j k : ℤ)
    (hi : 0 ≤ i ∧ i < mi) (hj : 0 ≤ j ∧ j < mj) (hk : 0 ≤ k ∧ k < mk) (hp : P.position (i, j, k) = false)
    (heo : P.eo ≠ 0) (hx : sx i = 0 ∧ sx (i + 1 / 2) = 0) (hy : sy j = 0 ∧ sy (j + 1 / 2) = 0)
    (hz : sz k = 0 ∧ sz (k + 1 / 2) = 0) (h : Ix → HF K) (v : EF K) (e : Ix → EF K) (w : HF K) :
    let Q := coefficient 1 1 1 sx sy sz mi mj mk P
    ((pmlE Q h (i, j, k) v).x = (normalE P h (i, j, k) v).x ∧ (pmlE Q h (i, j, k) v).y = (normalE P h (i, j, k) v).y ∧
      (pmlE Q h (i, j, k) v).z = (normalE P h (i, j, k) v).z) ∧
    (pmlH Q e (i, j, k) w).x = (normalH P e (i, j, k) w).x ∧ (pmlH Q e (i, j, k) w).y = (normalH P e (i, j, k) w).y ∧
      (pmlH Q e (i, j, k) w).z = (normalH P e (i, j, k) w).z := by
  obtain ⟨aX, aY, aZ⟩ := hits P mi mj mk i j k hi hj hk hp
  have aC : (decide ((0 ≤ i ∧ i < mi) ∧ (0 ≤ j ∧ j < mj) ∧ 0 ≤ k ∧ k < mk) && !P.position (i, j, k)) = true := by
    rw [hp]; simp [hi, hj, hk]
  obtain ⟨x1, x2⟩ := hx
  obtain ⟨y1, y2⟩ := hy
  obtain ⟨z1, z2⟩ := hz
  have h2e : 2 * P.eo ≠ 0 := mul_ne_zero h2 heo
  have e1 : 2 * P.eo * P.dt / (2 * P.eo) = P.dt := by field_simp
  have e2 : 2 / (2 * P.eo) = 1 / P.eo := by field_simp
  have hcE : curlHx (coefficient 1 1 1 sx sy sz mi mj mk P) h = curlHx P h ∧
      curlHy (coefficient 1 1 1 sx sy sz mi mj mk P) h = curlHy P h ∧
      curlHz (coefficient 1 1 1 sx sy sz mi mj mk P) h = curlHz P h := ⟨rfl, rfl, rfl⟩
  have hcH : curlEx (coefficient 1 1 1 sx sy sz mi mj mk P) e = curlEx P e ∧
      curlEy (coefficient 1 1 1 sx sy sz mi mj mk P) e = curlEy P e ∧
      curlEz (coefficient 1 1 1 sx sy sz mi mj mk P) e = curlEz P e := ⟨rfl, rfl, rfl⟩
  dsimp only
  simp only [pmlE, pmlH, normalE, normalH, tus, hcE, hcH]
  simp only [coefficient, aX, aY, aZ, aC, if_true, x1, x2, y1, y2, z1, z2, mul_one, mul_zero, add_zero, sub_zero,
    zero_div, div_self h2e, one_mul, e1, e2]
  refine ⟨⟨?_, ?_, ?_⟩, ?_, ?_, ?_⟩ <;> ring

/-! ### Conductivities -/

/-- **C153**: no conductivity acts outside the layers of the map in `memory.c`, neither at the whole
nor at the half positions, so the layers of `sigma.c` are those of the map. -/
theorem sigma_inside (per : Bool) (ε sl sr ol or : ℝ) (pl pr n i : ℤ) (h1 : pl + 1 ≤ i) (h2 : i ≤ n - pr - 2) :
    sigma per ε sl sr ol or pl pr n i = 0 ∧ sigma per ε sl sr ol or pl pr n (i + 1 / 2) = 0 := by
  have h1' : (pl : ℝ) + 1 ≤ i := by exact_mod_cast h1
  have h2' : (i : ℝ) ≤ n - pr - 2 := by exact_mod_cast h2
  unfold sigma
  constructor
  · by_cases hp : per = false
    · rw [if_pos hp]
      dsimp only
      rw [if_neg (by linarith), if_pos (by linarith)]
    · rw [if_neg hp]
  · by_cases hp : per = false
    · rw [if_pos hp]
      dsimp only
      rw [if_neg (by linarith), if_pos (by linarith)]
    · rw [if_neg hp]

/-- **C153**: all conductivities are at least zero, so the layers only absorb. -/
theorem sigma_nonneg (per : Bool) (ε sl sr ol or : ℝ) (pl pr n : ℤ) (a : ℝ) (hs : 0 ≤ sl ∧ 0 ≤ sr)
    (ho : -1 ≤ ol ∧ -1 ≤ or) (hp : 0 ≤ pl ∧ 0 ≤ pr) : 0 ≤ sigma per ε sl sr ol or pl pr n a := by
  have hl : (0 : ℝ) ≤ pl := by exact_mod_cast hp.1
  have hr : (0 : ℝ) ≤ pr := by exact_mod_cast hp.2
  obtain ⟨s1, s2⟩ := hs
  have o1 : 0 ≤ ol + 1 := by linarith [ho.1]
  have o2 : 0 ≤ or + 1 := by linarith [ho.2]
  unfold sigma
  split_ifs with h1 h2 h3
  · refine mul_nonneg (by positivity) (Real.rpow_nonneg (div_nonneg (by linarith) hl) _)
  · exact le_refl _
  · refine mul_nonneg (by positivity) (Real.rpow_nonneg (div_nonneg (by linarith) hr) _)
  · exact le_refl _

/-- **C153**: with equal parameters at both ends the conductivity is the same at positions
mirrored at the middle `(n - 1/2)/2`; a whole position is mirrored to a half position. -/
theorem sigma_mirror (ε s o : ℝ) (p n : ℤ) (a : ℝ) (ho : o ≠ 0) (hn : 2 * p + 2 ≤ n) :
    sigma false ε s s o o p p n (n - 1 / 2 - a) = sigma false ε s s o o p p n a := by
  have hn' : 2 * (p : ℝ) + 2 ≤ n := by exact_mod_cast hn
  unfold sigma
  simp only [if_true]
  rcases lt_trichotomy a (p + 1 / 2) with h | h | h
  · rw [if_pos h, if_neg (by linarith), if_neg (by linarith)]
    congr 2
    ring
  · subst h
    rw [if_neg (by linarith), if_neg (by linarith), if_neg (lt_irrefl _), if_pos (by linarith)]
    have : ((n : ℝ) - 1 / 2 - (p + 1 / 2) - (n - p - 1)) / p = 0 := by
      rw [show (n : ℝ) - 1 / 2 - (p + 1 / 2) - (n - p - 1) = 0 by ring, zero_div]
    rw [this, Real.zero_rpow ho, mul_zero]
  · rw [if_neg (show ¬a < (p : ℝ) + 1 / 2 by linarith)]
    by_cases h2 : a < n - p - 1
    · rw [if_neg (by linarith), if_pos (by linarith), if_pos h2]
    · rw [if_neg h2]
      push Not at h2
      rcases eq_or_lt_of_le h2 with h3 | h3
      · rw [if_neg (by linarith), if_pos (by linarith), ← h3, sub_self, zero_div, Real.zero_rpow ho, mul_zero]
      · rw [if_pos (by linarith)]
        congr 2
        ring

/-- **C153**: a perfect conductor without field stays without field, inside and in a layer. -/
theorem conductor_zero (P : Par K) (hP : Sized P) (h1000 : (1000 : K) ≠ 0 ∧ (1000 : K) ≠ 100) (s : St K) (c : Ix)
    (hc : c ∈ cells P) (hm : P.mepsilon c = 1000) (hz : (s.1 c).x = 0 ∧ (s.1 c).y = 0 ∧ (s.1 c).z = 0) (n : ℕ) :
    (((propagate P)^[n] s).1 c).x = 0 ∧ (((propagate P)^[n] s).1 c).y = 0 ∧ (((propagate P)^[n] s).1 c).z = 0 := by
  induction n with
  | zero => exact hz
  | succ n ih =>
    rw [Function.iterate_succ_apply', propagate_E P hP _ c hc]
    unfold stepE
    dsimp only
    rw [if_neg (fun h => h1000.1 (hm ▸ h.2)), if_neg (fun h => h1000.2 (hm ▸ h.2)), if_neg (fun h => h.2.2 hm),
      if_neg (fun h => h.2.2 hm)]
    by_cases hp : P.position c = true
    · rw [if_pos ⟨hp, hm⟩]
      exact ⟨rfl, rfl, rfl⟩
    · rw [if_neg (fun h => hp h.1), if_neg (fun h => h1000.1 (hm ▸ h.2))]
      exact ih

/-! ### Examples -/

/-- The box of C152 with a metal cell in the middle. -/
def metal3 : Par ℚ :=
  { box3 with
    mepsilon := fun c => if c = (2, 2, 2) then 1 else 0
    momega := fun _ => 1
    mgamma := fun _ => 1 / 2 }

theorem metal3_cells (c : Ix) : PlainOrMetal metal3 c := by
  by_cases h : c = (2, 2, 2)
  · refine Or.inr ⟨⟨?_, ?_, ?_⟩, ?_, ?_, ?_⟩ <;> norm_num [metal3, box3, h]
  · exact Or.inl ⟨rfl, if_neg h⟩

/-- The hypotheses of passivity hold for a metal in the box, and the metal does absorb. -/
example : drudeEnergy metal3 (propagate metal3 spark) ≤ drudeEnergy metal3 spark ∧
    ((propagate metal3 spark).1 (2, 2, 2)).Jz ≠ 0 := by
  have hP : Sized metal3 := box3_sized
  have hw : WallsE metal3 spark.1 ∧ WallsH metal3 spark.2 := by
    obtain ⟨⟨a, b, c⟩, ⟨d, e, f⟩⟩ := spark_walls
    exact ⟨⟨a, b, c⟩, ⟨d, e, f⟩⟩
  constructor
  · exact (drude_passive metal3 hP (by decide) (by decide) (by decide) (fun c _ => metal3_cells c) (fun _ => one_pos)
      ⟨one_pos, one_pos, one_pos, by norm_num [metal3, box3]⟩
      (fun c => ⟨one_ne_zero, one_ne_zero, by simp only [metal3, box3]; split_ifs <;> norm_num⟩)
      (fun c => by norm_num [metal3]) spark hw.1 hw.2 0).2.2.1
  · rw [propagate_E metal3 hP spark _ (by rw [mem_cells]; decide),
      stepE_metal metal3 _ _ _ ⟨by norm_num [metal3], by norm_num [metal3], by norm_num [metal3]⟩]
    norm_num [metalE, curlHz, metal3, box3, spark]

/-- A layer of ten cells at each end of a grid of hundred, with the default parameters. -/
example : sigma false 1 1 1 (7 / 2) (7 / 2) 10 10 100 (11 : ℤ) = 0 ∧
    0 < sigma false 1 1 1 (7 / 2) (7 / 2) 10 10 100 (10 : ℤ) := by
  refine ⟨(sigma_inside _ _ _ _ _ _ 10 10 100 11 (by norm_num) (by norm_num)).1, ?_⟩
  unfold sigma
  rw [if_pos rfl]
  dsimp only
  rw [if_pos (by norm_num)]
  refine mul_pos ?_ (Real.rpow_pos_of_pos (by norm_num) _)
  have := Real.pi_pos
  rw [Real.sqrt_one]
  positivity

/-- A cell of a layer for the equations. -/
example : (2 * box3.eo * 1 + box3.dt * (fun a : ℚ => a) (1 : ℤ) ≠ 0) ∧
    ({ box3 with position := fun _ => false } : Par ℚ).position (1, 1, 1) = false := by
  exact ⟨by norm_num [box3], rfl⟩

end OpenMS.Fdtd
