import Verif.Props.WeightProduct
import Verif.Props.ProductStep

/-!
# Weights of steps with bosons (C111, C112)

The weight a step assigns, in terms of the overlaps of electrons and bosons together and of the factors of
all fields.
-/

namespace OpenMS.JointStep

open Matrix OpenMS.Propagators OpenMS.Green OpenMS.Step OpenMS.Joint

set_option linter.unusedSectionVars false

/-- The weight update in terms of the importance ratio `R`, in absence of clipping. -/
theorem update_ratio {dt : ℝ} (hdt : 0 < dt) {eshift : ℂ} {w e : ℝ} {i : UpdateInput} {w' e' : ℝ}
    (h : updateWeight (some "hybrid") dt eshift w e i = .ok (w', e')) (ho : i.ovlp ≠ 0) (hn : i.newovlp ≠ 0)
    {R : ℂ} (hR : R = i.newovlp / i.ovlp * Complex.exp (i.cfb + i.cmf))
    (hin : |-Real.log ‖R‖ / dt - eshift.re| ≤ Real.sqrt (2 / dt)) :
    e' = -Real.log ‖R‖ / dt ∧
      w' * Real.exp (-(dt / 2) * e') = w * Real.exp (-(dt / 2) * e) *
        (‖R‖ * Real.exp (dt * eshift.re) * max 0 (Real.cos i.cfb.im)) := by
  have hRne : R ≠ 0 := by
    rw [hR]
    exact mul_ne_zero (div_ne_zero hn ho) (Complex.exp_ne_zero _)
  have hlog : Real.log ‖R‖ = (Complex.log (i.newovlp / i.ovlp) + i.cfb + i.cmf).re := by
    rw [hR, norm_mul, Complex.norm_exp, Real.log_mul (by
      rw [norm_ne_zero_iff]; exact div_ne_zero hn ho) (Real.exp_ne_zero _), Real.log_exp]
    simp only [Complex.add_re, Complex.log_re]
    ring
  simp only [updateWeight, if_true, Except.ok.injEq] at h
  have he : e' = -Real.log ‖R‖ / dt := by
    have := congrArg Prod.snd h
    simp only [updateHybrid, hybridEnergy] at this
    rw [← this, Complex.div_ofReal_re, Complex.neg_re, ← hlog]
    rw [abs_le] at hin
    exact clipTo_eq _ _ _ (by unfold ebound; linarith [hin.1]) (by unfold ebound; linarith [hin.2])
  refine ⟨he, ?_⟩
  have hw := updateHybrid_eq dt w e i.ovlp i.newovlp i.cfb i.cmf eshift
  rw [h] at hw
  simp only at hw
  have hnR : ‖R‖ = Real.exp (-(dt * e')) := by
    rw [he, mul_div_cancel₀ _ hdt.ne', neg_neg, Real.exp_log (norm_pos_iff.2 hRne)]
  rw [hw, hnR]
  have e1 : Real.exp (-dt * (1 / 2 * (e' + e) - eshift.re)) * Real.exp (-(dt / 2) * e') =
      Real.exp (-(dt / 2) * e) * (Real.exp (-(dt * e')) * Real.exp (dt * eshift.re)) := by
    rw [← Real.exp_add, ← Real.exp_add, ← Real.exp_add]
    congr 1
    ring
  linear_combination w * max 0 (Real.cos i.cfb.im) * e1

variable {p ia ib c d b : Type*} [Fintype p] [Fintype ia] [DecidableEq ia] [Fintype ib]
  [DecidableEq ib] [Fintype c] [Fintype d] [Fintype b]

/-- **C111.** The weight: in the hybrid scheme and without clipping it is multiplied by the modulus of the
ratio of the overlaps of electrons and bosons times the factors of all fields, the shift and the projection,
up to the exponentials of the stored energies, which cancel along a run. -/
theorem joint_weight (S : JSetup p ia ib c d b) (hdt : 0 < S.el.dt) (hs : S.el.scheme = some "hybrid")
    (eshift : ℂ) (x : c ⊕ d → ℝ) (w w' : JWalker p ia ib b) (h : jstep S eshift x w = .ok w')
    (k : Matrix p ia ℂ × Matrix p ib ℂ) (hk : halves S.el w.el.phia w.el.phib = some k) (R : ℂ)
    (hR : R = (ovlp S.el w'.el.phia w'.el.phib * bosonOvlp S.psi w'.chi) /
        (ovlp S.el w.el.phia w.el.phib * bosonOvlp S.psi w.chi) *
      Complex.exp (cfb x (xbar S.el k) + cmf S.el.dt x (xbar S.el k) S.el.lbar +
        (∑ γ, ((x (Sum.inr γ) : ℂ) * bbar S w.chi γ - bbar S w.chi γ ^ 2 / 2) -
          ∑ γ, (Real.sqrt S.el.dt : ℂ) * ((x (Sum.inr γ) : ℂ) - bbar S w.chi γ) * (Complex.I * S.bmf γ))))
    (hin : |-Real.log ‖R‖ / S.el.dt - eshift.re| ≤ Real.sqrt (2 / S.el.dt)) :
    w'.el.ehybrid = -Real.log ‖R‖ / S.el.dt ∧
      w'.el.weight * Real.exp (-(S.el.dt / 2) * w'.el.ehybrid) =
        w.el.weight * Real.exp (-(S.el.dt / 2) * w.el.ehybrid) *
        (‖R‖ * Real.exp (S.el.dt * eshift.re) * max 0 (Real.cos (cfb x (xbar S.el k) +
          ∑ γ, ((x (Sum.inr γ) : ℂ) * bbar S w.chi γ - bbar S w.chi γ ^ 2 / 2)).im)) := by
  have h0 : ovlp S.el w.el.phia w.el.phib ≠ 0 := ovlp_of_halves hk
  unfold jstep at h
  rw [hk] at h
  simp only at h
  by_cases hb : bosonOvlp S.psi w.chi = 0
  · rw [if_pos hb] at h; cases h
  rw [if_neg hb] at h
  generalize hB : (if S.el.two = true then _ else _ : Matrix p ib ℂ) = B at h
  generalize hA : move S.el _ (S.el.expH 0) w.el.phia = A at h
  generalize hc : moveB S _ _ w.chi = chi' at h
  by_cases hn : ovlp S.el A B * bosonOvlp S.psi chi' = 0
  · rw [if_pos hn] at h; cases h
  rw [if_neg hn] at h
  cases hu : updateWeight S.el.scheme S.el.dt eshift w.el.weight w.el.ehybrid
      ⟨ovlp S.el w.el.phia w.el.phib * bosonOvlp S.psi w.chi, ovlp S.el A B * bosonOvlp S.psi chi',
        cfb x (xbar S.el k) + bosonCfb (x ∘ Sum.inr) (bbar S w.chi),
        cmf S.el.dt x (xbar S.el k) S.el.lbar + bosonCmf S.el.dt (x ∘ Sum.inr) (bbar S w.chi) S.bmf,
        w.el.eloc⟩ with
  | error e => rw [hu] at h; cases h
  | ok r =>
    rw [hu] at h
    simp only [Except.ok.injEq] at h
    subst h
    have e1 : bosonCfb (x ∘ Sum.inr) (bbar S w.chi) =
        ∑ γ, ((x (Sum.inr γ) : ℂ) * bbar S w.chi γ - bbar S w.chi γ ^ 2 / 2) := by
      simp only [bosonCfb, Function.comp_apply, Finset.sum_sub_distrib, Finset.mul_sum]
      congr 1
      exact Finset.sum_congr rfl fun γ _ => by ring
    have e2 : bosonCmf S.el.dt (x ∘ Sum.inr) (bbar S w.chi) S.bmf =
        -∑ γ, (Real.sqrt S.el.dt : ℂ) * ((x (Sum.inr γ) : ℂ) - bbar S w.chi γ) * (Complex.I * S.bmf γ) := by
      simp only [bosonCmf, mfShift, Function.comp_apply, Finset.mul_sum, ← Finset.sum_neg_distrib]
      exact Finset.sum_congr rfl fun γ _ => by ring
    rw [hs] at hu
    rw [← e1]
    refine update_ratio hdt hu (mul_ne_zero h0 hb) hn ?_ hin
    rw [hR]
    simp only [e1, e2]
    congr 2
    ring

/-- One orbital, one boson state, one common field. -/
noncomputable def unitSystem : JSetup (Fin 1) (Fin 1) (Fin 1) Empty Unit (Fin 1) where
  el :=
    { two := true
      dt := 1
      order := 1
      bound := 1
      scheme := some "hybrid"
      expH := fun _ => 1
      L := fun _ => 1
      lbar := fun _ => 2
      Ta := 1
      Tb := 1 }
  expB := 1
  chol := fun _ => 1
  bmf := fun _ => 1
  psi := fun _ => 1

/-- Its walker. -/
noncomputable def unitWalker : JWalker (Fin 1) (Fin 1) (Fin 1) (Fin 1) :=
  ⟨⟨1, 1, 1, 0, 0⟩, Matrix.of fun _ _ => 1⟩

/-- The hypotheses of `joint_weight` can be met, with a non-zero field. -/
example : ∃ (eshift : ℂ) (x : Empty ⊕ Unit → ℝ) (w' : JWalker (Fin 1) (Fin 1) (Fin 1) (Fin 1))
    (k : Matrix (Fin 1) (Fin 1) ℂ × Matrix (Fin 1) (Fin 1) ℂ) (R : ℂ), x (Sum.inr ()) = 1 ∧
    0 < unitSystem.el.dt ∧ unitSystem.el.scheme = some "hybrid" ∧
    jstep unitSystem eshift x unitWalker = .ok w' ∧
    halves unitSystem.el unitWalker.el.phia unitWalker.el.phib = some k ∧
    R = (ovlp unitSystem.el w'.el.phia w'.el.phib * bosonOvlp unitSystem.psi w'.chi) /
        (ovlp unitSystem.el unitWalker.el.phia unitWalker.el.phib *
          bosonOvlp unitSystem.psi unitWalker.chi) *
      Complex.exp (cfb x (xbar unitSystem.el k) + cmf unitSystem.el.dt x (xbar unitSystem.el k) unitSystem.el.lbar +
        (∑ γ, ((x (Sum.inr γ) : ℂ) * bbar unitSystem unitWalker.chi γ -
            bbar unitSystem unitWalker.chi γ ^ 2 / 2) -
          ∑ γ, (Real.sqrt unitSystem.el.dt : ℂ) * ((x (Sum.inr γ) : ℂ) - bbar unitSystem unitWalker.chi γ) *
            (Complex.I * unitSystem.bmf γ))) ∧
    |-Real.log ‖R‖ / unitSystem.el.dt - eshift.re| ≤ Real.sqrt (2 / unitSystem.el.dt) := by
  have hg : ghalf (1 : Matrix (Fin 1) (Fin 1) ℂ) 1 = some 1 := by
    have h1 : ovlpMatrix (1 : Matrix (Fin 1) (Fin 1) ℂ) 1 = 1 := by
      ext a b
      fin_cases a; fin_cases b
      simp [ovlpMatrix, conj, Matrix.mul_apply]
    unfold ghalf Green.inv
    rw [h1, if_neg (by simp), inv_one]
    simp only [Option.map_some, Option.some.injEq]
    ext a b
    fin_cases a; fin_cases b
    simp
  have hk : halves unitSystem.el unitWalker.el.phia unitWalker.el.phib = some (1, 1) := by
    unfold halves
    rw [show ghalf unitSystem.el.Ta unitWalker.el.phia = some 1 from hg,
      show ghalf unitSystem.el.Tb unitWalker.el.phib = some 1 from hg]
    rfl
  have hx : xbar unitSystem.el ((1 : Matrix (Fin 1) (Fin 1) ℂ), (1 : Matrix (Fin 1) (Fin 1) ℂ)) = 0 := by
    funext γ
    simp [xbar, unitSystem, xbarRaw, getVbias, vbias, halfRotate, conj, beta, mfShift, rescaleFbias]
    norm_num
  have hb : bosonOvlp unitSystem.psi unitWalker.chi = 1 := by
    simp [bosonOvlp, unitSystem, unitWalker]
  have hy : bbar unitSystem unitWalker.chi = 0 := by
    funext γ
    unfold bbar bosonXbar bosonVbias
    rw [hb]
    simp [unitSystem, unitWalker, mfShift, rescaleFbias]
  let x : Empty ⊕ Unit → ℝ := fun _ => 1
  have hA : fieldOp unitSystem.el x (xbar unitSystem.el ((1 : Matrix (Fin 1) (Fin 1) ℂ), (1 : Matrix (Fin 1) (Fin 1) ℂ))) =
      Complex.I • 1 := by
    rw [hx]
    unfold fieldOp
    simp [unitSystem, xshift, x]
  have hm : move unitSystem.el (Complex.I • (1 : Matrix (Fin 1) (Fin 1) ℂ)) 1 (1 : Matrix (Fin 1) (Fin 1) ℂ) =
      (1 + Complex.I) • 1 := by
    unfold move
    rw [taylor_sum]
    simp [unitSystem, Finset.sum_range_succ, add_smul]
  have hc : moveB unitSystem (x ∘ Sum.inr) 0 unitWalker.chi = (1 + Complex.I) • unitWalker.chi := by
    unfold moveB
    rw [taylor_sum]
    simp [unitSystem, Finset.sum_range_succ, add_smul, xshift, x]
  have hI : (1 : ℂ) + Complex.I ≠ 0 := by
    intro h
    have := congrArg Complex.re h
    simp at this
  have hn : ovlp unitSystem.el ((1 + Complex.I) • 1) ((1 + Complex.I) • 1) *
      bosonOvlp unitSystem.psi ((1 + Complex.I) • unitWalker.chi) ≠ 0 := by
    have h2 : bosonOvlp unitSystem.psi ((1 + Complex.I) • unitWalker.chi) = 1 + Complex.I := by
      simp [bosonOvlp, unitSystem, unitWalker]
    rw [h2]
    refine mul_ne_zero ?_ hI
    unfold ovlp beta overlap
    simp [unitSystem, ovlpMatrix, conj, hI]
  have hj : ∀ e : ℂ, ∃ r : ℝ × ℝ, jstep unitSystem e x unitWalker =
      .ok ⟨⟨(1 + Complex.I) • 1, (1 + Complex.I) • 1, r.1, r.2, 0⟩, (1 + Complex.I) • unitWalker.chi⟩ := by
    intro e
    unfold jstep
    rw [hk]
    simp only
    rw [hb, if_neg one_ne_zero, hA, hy, hc,
      show unitSystem.el.expH 0 = 1 from rfl, show unitSystem.el.expH 1 = 1 from rfl,
      show unitWalker.el.phia = 1 from rfl, show unitWalker.el.phib = 1 from rfl, hm,
      show unitSystem.el.two = true from rfl, if_pos rfl, if_neg hn]
    simp only [updateWeight, show unitSystem.el.scheme = some "hybrid" from rfl, if_true]
    exact ⟨_, rfl⟩
  let R : ℂ := (ovlp unitSystem.el ((1 + Complex.I) • 1) ((1 + Complex.I) • 1) *
      bosonOvlp unitSystem.psi ((1 + Complex.I) • unitWalker.chi)) /
        (ovlp unitSystem.el unitWalker.el.phia unitWalker.el.phib *
          bosonOvlp unitSystem.psi unitWalker.chi) *
      Complex.exp (cfb x (xbar unitSystem.el (1, 1)) + cmf unitSystem.el.dt x (xbar unitSystem.el (1, 1))
          unitSystem.el.lbar +
        (∑ γ, ((x (Sum.inr γ) : ℂ) * bbar unitSystem unitWalker.chi γ -
            bbar unitSystem unitWalker.chi γ ^ 2 / 2) -
          ∑ γ, (Real.sqrt unitSystem.el.dt : ℂ) * ((x (Sum.inr γ) : ℂ) - bbar unitSystem unitWalker.chi γ) *
            (Complex.I * unitSystem.bmf γ)))
  obtain ⟨r, hr⟩ := hj ((-Real.log ‖R‖ / unitSystem.el.dt : ℝ) : ℂ)
  refine ⟨_, x, _, (1, 1), R, rfl, by norm_num [unitSystem], rfl, hr, hk, rfl, ?_⟩
  rw [Complex.ofReal_re, sub_self, abs_zero]
  exact Real.sqrt_nonneg _

end OpenMS.JointStep

namespace OpenMS.ProductStep

open Matrix OpenMS.Propagators OpenMS.Green OpenMS.Step OpenMS.JointStep

set_option linter.unusedSectionVars false

variable {p ia ib c m : Type*} [Fintype p] [DecidableEq p] [Fintype ia] [DecidableEq ia] [Fintype ib]
  [DecidableEq ib] [Fintype c] [Fintype m] [DecidableEq m] {n : m → ℕ}

/-- **C112.** The weight of a step in given mean fields. -/
theorem product_weight (S : PSetup p ia ib c n) (hdt : 0 < S.el.dt) (hs : S.el.scheme = some "hybrid")
    (Q z : m → ℂ) (eshift : ℂ) (x : c → ℝ) (k : Matrix p ia ℂ × Matrix p ib ℂ)
    (w w' : JWalker p ia ib (Fock n)) (h : pone S Q z eshift x k w = .ok w')
    (hk : halves S.el w.el.phia w.el.phib = some k) (hb : bosonOvlp S.psi w.chi ≠ 0) (R : ℂ)
    (hR : R = (ovlp S.el w'.el.phia w'.el.phib * bosonOvlp S.psi w'.chi) /
        (ovlp S.el w.el.phia w.el.phib * bosonOvlp S.psi w.chi) *
      Complex.exp (cfb x (xbar S.el k) + cmf S.el.dt x (xbar S.el k) S.el.lbar))
    (hin : |-Real.log ‖R‖ / S.el.dt - eshift.re| ≤ Real.sqrt (2 / S.el.dt)) :
    w'.el.ehybrid = -Real.log ‖R‖ / S.el.dt ∧
      w'.el.weight * Real.exp (-(S.el.dt / 2) * w'.el.ehybrid) =
        w.el.weight * Real.exp (-(S.el.dt / 2) * w.el.ehybrid) *
        (‖R‖ * Real.exp (S.el.dt * eshift.re) * max 0 (Real.cos (cfb x (xbar S.el k)).im)) := by
  have h0 : ovlp S.el w.el.phia w.el.phib ≠ 0 := ovlp_of_halves hk
  unfold pone at h
  simp only at h
  generalize hB : (if (withField S Q).two = true then _ else _ : Matrix p ib ℂ) = B at h
  generalize hA : move (withField S Q) _ ((withField S Q).expH 0) w.el.phia = A at h
  generalize hc : moveP S z w.chi = chi' at h
  by_cases hn : ovlp (withField S Q) A B * bosonOvlp S.psi chi' = 0
  · rw [if_pos hn] at h; cases h
  rw [if_neg hn] at h
  cases hu : updateWeight (withField S Q).scheme (withField S Q).dt eshift w.el.weight w.el.ehybrid
      ⟨ovlp (withField S Q) w.el.phia w.el.phib * bosonOvlp S.psi w.chi,
        ovlp (withField S Q) A B * bosonOvlp S.psi chi', cfb x (xbar (withField S Q) k),
        cmf (withField S Q).dt x (xbar (withField S Q) k) (withField S Q).lbar, w.el.eloc⟩ with
  | error e => rw [hu] at h; cases h
  | ok r =>
    rw [hu] at h
    simp only [Except.ok.injEq] at h
    subst h
    rw [show (withField S Q).scheme = some "hybrid" from hs] at hu
    exact update_ratio (i := ⟨ovlp (withField S Q) w.el.phia w.el.phib * bosonOvlp S.psi w.chi,
        ovlp (withField S Q) A B * bosonOvlp S.psi chi', cfb x (xbar (withField S Q) k),
        cmf (withField S Q).dt x (xbar (withField S Q) k) (withField S Q).lbar, w.el.eloc⟩) hdt hu
      (mul_ne_zero h0 hb) hn hR hin

end OpenMS.ProductStep
