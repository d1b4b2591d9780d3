import Verif.Model.Step
import Verif.Props.Step
import Verif.Props.Green
import Verif.Props.Propagate
import Mathlib.Algebra.MvPolynomial.Eval
import Mathlib.MeasureTheory.Integral.IntegralEqImproper
import Mathlib.MeasureTheory.Integral.Pi
import Mathlib.Analysis.SpecialFunctions.Gaussian.FourierTransform
import Mathlib.Tactic

/-!
# The force bias does not change the average over the fields (C107)
-/

set_option linter.unusedSectionVars false

namespace OpenMS.Step

open Matrix OpenMS.Propagators OpenMS.Green MeasureTheory

/-! ### One field -/

/-- Gaussian factor of one shifted field with a power of the shifted field. -/
noncomputable def gauss (c z : ℂ) (k : ℕ) (x : ℝ) : ℂ :=
  Complex.exp (-(1 / 2) * ((x : ℂ) - z) ^ 2 + c * ((x : ℂ) - z)) * ((x : ℂ) - z) ^ k

theorem gauss_integrable (c z : ℂ) (k : ℕ) : Integrable (gauss c z k) := by
  have hb : (0 : ℝ) < (1 / 2 : ℂ).re := by norm_num
  have i1 := (integrable_cexp_quadratic hb (z + c + 1) (-(1 / 2) * z ^ 2 - c * z)).norm
  have i2 := (integrable_cexp_quadratic hb (z + c - 1) (-(1 / 2) * z ^ 2 - c * z)).norm
  have i3 := (i1.add i2).const_mul ((k.factorial : ℝ) * Real.exp ‖z‖)
  refine i3.mono' ?_ (Filter.Eventually.of_forall fun x => ?_)
  · unfold gauss
    fun_prop
  · unfold gauss
    rw [norm_mul, norm_pow]
    have hk : ‖(x : ℂ) - z‖ ^ k ≤ (k.factorial : ℝ) * Real.exp ‖(x : ℂ) - z‖ := by
      have h := Real.pow_div_factorial_le_exp (x := ‖(x : ℂ) - z‖) (norm_nonneg _) k
      rw [div_le_iff₀ (by positivity)] at h
      linarith
    have hx : Real.exp ‖(x : ℂ) - z‖ ≤ Real.exp ‖z‖ * (Real.exp x + Real.exp (-x)) := by
      have h1 : ‖(x : ℂ) - z‖ ≤ |x| + ‖z‖ := by
        refine (norm_sub_le _ _).trans ?_
        rw [Complex.norm_real, Real.norm_eq_abs]
      refine (Real.exp_le_exp.2 h1).trans ?_
      rw [Real.exp_add, mul_comm]
      refine mul_le_mul_of_nonneg_left ?_ (Real.exp_pos _).le
      rcases abs_cases x with ⟨h, _⟩ | ⟨h, _⟩ <;> rw [h] <;>
        linarith [Real.exp_pos x, Real.exp_pos (-x)]
    have hsplit : ∀ s : ℝ, ‖Complex.exp (-(1 / 2) * (x : ℂ) ^ 2 + (z + c + s) * x +
        (-(1 / 2) * z ^ 2 - c * z))‖ =
        ‖Complex.exp (-(1 / 2) * ((x : ℂ) - z) ^ 2 + c * ((x : ℂ) - z))‖ * Real.exp (s * x) := by
      intro s
      have : Complex.exp (-(1 / 2) * (x : ℂ) ^ 2 + (z + c + s) * x +
        (-(1 / 2) * z ^ 2 - c * z)) =
        Complex.exp (-(1 / 2) * ((x : ℂ) - z) ^ 2 + c * ((x : ℂ) - z)) *
          Complex.exp (((s * x : ℝ) : ℂ)) := by
        rw [← Complex.exp_add]
        congr 1
        push_cast
        ring
      rw [this, norm_mul, Complex.norm_exp_ofReal]
    have h1 := hsplit 1
    have h2 := hsplit (-1)
    rw [one_mul] at h1
    rw [neg_one_mul] at h2
    push_cast at h1 h2
    rw [← sub_eq_add_neg] at h2
    simp only [Pi.add_apply]
    rw [h1, h2]
    set E := ‖Complex.exp (-(1 / 2) * ((x : ℂ) - z) ^ 2 + c * ((x : ℂ) - z))‖ with hE
    have hE0 : 0 ≤ E := norm_nonneg _
    calc E * ‖(x : ℂ) - z‖ ^ k ≤ E * ((k.factorial : ℝ) * (Real.exp ‖z‖ * (Real.exp x + Real.exp (-x)))) :=
          mul_le_mul_of_nonneg_left (hk.trans (mul_le_mul_of_nonneg_left hx (by positivity))) hE0
      _ = _ := by ring

theorem gauss_rec (c z : ℂ) (k : ℕ) :
    ∫ x, gauss c z (k + 1) x = c * (∫ x, gauss c z k x) + k * ∫ x, gauss c z (k - 1) x := by
  have hd : ∀ x : ℝ, HasDerivAt (gauss c z k)
      (c * gauss c z k x + k * gauss c z (k - 1) x - gauss c z (k + 1) x) x := by
    intro x
    have hu : HasDerivAt (fun x : ℝ => (x : ℂ) - z) 1 x :=
      (Complex.ofRealCLM.hasDerivAt (x := x)).sub_const z
    have he := (((hu.pow 2).const_mul (-(1 / 2) : ℂ)).add (hu.const_mul c)).cexp
    have hg := he.mul (hu.pow k)
    refine hg.congr_deriv ?_
    unfold gauss
    simp only [Pi.add_apply, Pi.pow_apply]
    push_cast
    ring
  have h := integral_eq_zero_of_hasDerivAt_of_integrable hd
    ((((gauss_integrable c z k).const_mul c).add
      ((gauss_integrable c z (k - 1)).const_mul (k : ℂ))).sub (gauss_integrable c z (k + 1)))
    (gauss_integrable c z k)
  have e1 : ∫ x, (c * gauss c z k x + k * gauss c z (k - 1) x - gauss c z (k + 1) x) =
      (∫ x, (c * gauss c z k x + k * gauss c z (k - 1) x)) - ∫ x, gauss c z (k + 1) x :=
    integral_sub (((gauss_integrable c z k).const_mul c).add
      ((gauss_integrable c z (k - 1)).const_mul (k : ℂ))) (gauss_integrable c z (k + 1))
  rw [e1, integral_add ((gauss_integrable c z k).const_mul c)
      ((gauss_integrable c z (k - 1)).const_mul (k : ℂ)),
    integral_const_mul, integral_const_mul, sub_eq_zero] at h
  exact h.symm

theorem gauss_zero (c z : ℂ) : ∫ x, gauss c z 0 x = ∫ x, gauss c 0 0 x := by
  have hb : (-(1 / 2) : ℂ).re < 0 := by norm_num
  have h : ∀ z : ℂ, ∫ x, gauss c z 0 x =
      (Real.pi / -(-(1 / 2) : ℂ)) ^ (1 / 2 : ℂ) * Complex.exp (c ^ 2 / 2) := by
    intro z
    have e : ∀ x : ℝ, gauss c z 0 x = Complex.exp (-(1 / 2) * (x : ℂ) ^ 2 + (z + c) * x +
        (-(1 / 2) * z ^ 2 - c * z)) := by
      intro x
      unfold gauss
      rw [pow_zero, mul_one]
      congr 1
      ring
    simp_rw [e]
    rw [integral_cexp_quadratic hb]
    congr 2
    ring
  rw [h, h]

/-- The average does not depend on the shift, complex shifts included. -/
theorem gauss_shift (c z : ℂ) (k : ℕ) : ∫ x, gauss c z k x = ∫ x, gauss c 0 k x := by
  induction k using Nat.strong_induction_on with
  | _ k ih =>
    cases k with
    | zero => exact gauss_zero c z
    | succ k =>
      rw [gauss_rec, gauss_rec, ih k (by omega), ih (k - 1) (by omega)]

/-! ### All fields -/

variable {p ia ib g : Type*} [Fintype p] [DecidableEq p] [Fintype ia] [DecidableEq ia] [Fintype ib]
  [DecidableEq ib] [Fintype g]

theorem weights_prod (dt : ℝ) (xb lbar : g → ℂ) (x : g → ℝ) (d : g → ℕ) :
    (normalDensity x : ℂ) * (Complex.exp (cfb x xb + cmf dt x xb lbar) *
      ∏ γ, xshift x xb γ ^ d γ) =
    (((Real.sqrt (2 * Real.pi))⁻¹ : ℝ) : ℂ) ^ Fintype.card g *
      ∏ γ, gauss (-(Real.sqrt dt : ℂ) * mfShift lbar γ) (xb γ) (d γ) (x γ) := by
  unfold gauss
  rw [Finset.prod_mul_distrib, ← Complex.exp_sum]
  unfold normalDensity
  push_cast
  rw [mul_assoc, ← mul_assoc (Complex.exp _), ← Complex.exp_add]
  congr 3
  unfold cfb cmf xshift
  rw [← Finset.sum_neg_distrib, Finset.sum_div, Finset.mul_sum, ← Finset.sum_add_distrib,
    ← Finset.sum_add_distrib]
  apply Finset.sum_congr rfl
  intro γ _
  ring

/-- The average of a polynomial of the shifted fields, with the factors of the code, does not
depend on the force bias. -/
theorem poly_shift (dt : ℝ) (xb lbar : g → ℂ) (P : MvPolynomial g ℂ) :
    ∫ x : g → ℝ, (normalDensity x : ℂ) * (Complex.exp (cfb x xb + cmf dt x xb lbar) *
      MvPolynomial.eval (xshift x xb) P) =
    ∫ x : g → ℝ, (normalDensity x : ℂ) * (Complex.exp (cfb x 0 + cmf dt x 0 lbar) *
      MvPolynomial.eval (xshift x 0) P) := by
  have key : ∀ xb : g → ℂ, ∫ x : g → ℝ, (normalDensity x : ℂ) *
      (Complex.exp (cfb x xb + cmf dt x xb lbar) * MvPolynomial.eval (xshift x xb) P) =
      ∑ d ∈ P.support, P.coeff d * ((((Real.sqrt (2 * Real.pi))⁻¹ : ℝ) : ℂ) ^ Fintype.card g *
        ∏ γ, ∫ x, gauss (-(Real.sqrt dt : ℂ) * mfShift lbar γ) (xb γ) (d γ) x) := by
    intro xb
    have e : ∀ x : g → ℝ, (normalDensity x : ℂ) * (Complex.exp (cfb x xb + cmf dt x xb lbar) *
        MvPolynomial.eval (xshift x xb) P) = ∑ d ∈ P.support, P.coeff d *
        ((((Real.sqrt (2 * Real.pi))⁻¹ : ℝ) : ℂ) ^ Fintype.card g *
          ∏ γ, gauss (-(Real.sqrt dt : ℂ) * mfShift lbar γ) (xb γ) (d γ) (x γ)) := by
      intro x
      rw [MvPolynomial.eval_eq', Finset.mul_sum, Finset.mul_sum]
      apply Finset.sum_congr rfl
      intro d _
      rw [← weights_prod]
      ring
    simp_rw [e]
    rw [integral_finsetSum]
    · apply Finset.sum_congr rfl
      intro d _
      rw [integral_const_mul, integral_const_mul, integral_fintype_prod_volume_eq_prod]
    · intro d _
      exact ((Integrable.fintype_prod fun γ => gauss_integrable _ _ _).const_mul _).const_mul _
  rw [key, key]
  apply Finset.sum_congr rfl
  intro d _
  congr 2
  exact Finset.prod_congr rfl fun γ _ => by rw [gauss_shift]; rfl

/-! ### Polynomials in the fields -/

/-- The function is a polynomial of the fields. -/
def IsPoly (f : (g → ℂ) → ℂ) : Prop := ∃ P : MvPolynomial g ℂ, ∀ y, f y = MvPolynomial.eval y P

theorem IsPoly.const (c : ℂ) : IsPoly fun _ : g → ℂ => c := ⟨MvPolynomial.C c, by simp⟩

theorem IsPoly.var (γ : g) : IsPoly fun y : g → ℂ => y γ := ⟨MvPolynomial.X γ, by simp⟩

theorem IsPoly.add {f h : (g → ℂ) → ℂ} (hf : IsPoly f) (hh : IsPoly h) :
    IsPoly fun y => f y + h y := by
  obtain ⟨P, hP⟩ := hf
  obtain ⟨Q, hQ⟩ := hh
  exact ⟨P + Q, fun y => by beta_reduce; rw [hP, hQ, map_add]⟩

theorem IsPoly.mul {f h : (g → ℂ) → ℂ} (hf : IsPoly f) (hh : IsPoly h) :
    IsPoly fun y => f y * h y := by
  obtain ⟨P, hP⟩ := hf
  obtain ⟨Q, hQ⟩ := hh
  exact ⟨P * Q, fun y => by beta_reduce; rw [hP, hQ, map_mul]⟩

theorem IsPoly.sum {a : Type*} (s : Finset a) {f : a → (g → ℂ) → ℂ} (hf : ∀ i, IsPoly (f i)) :
    IsPoly fun y => ∑ i ∈ s, f i y := by
  choose P hP using hf
  exact ⟨∑ i ∈ s, P i, fun y => by rw [map_sum]; exact Finset.sum_congr rfl fun i _ => hP i y⟩

theorem IsPoly.prod {a : Type*} (s : Finset a) {f : a → (g → ℂ) → ℂ} (hf : ∀ i, IsPoly (f i)) :
    IsPoly fun y => ∏ i ∈ s, f i y := by
  choose P hP using hf
  exact ⟨∏ i ∈ s, P i, fun y => by rw [map_prod]; exact Finset.prod_congr rfl fun i _ => hP i y⟩

theorem IsPoly.matMul {a b c : Type*} [Fintype b] {M : (g → ℂ) → Matrix a b ℂ}
    {N : (g → ℂ) → Matrix b c ℂ} (hM : ∀ i j, IsPoly fun y => M y i j)
    (hN : ∀ i j, IsPoly fun y => N y i j) (i : a) (j : c) : IsPoly fun y => (M y * N y) i j := by
  simp only [Matrix.mul_apply]
  exact IsPoly.sum _ fun k => (hM i k).mul (hN k j)

theorem IsPoly.matPow {M : (g → ℂ) → Matrix p p ℂ} (hM : ∀ i j, IsPoly fun y => M y i j) (k : ℕ) :
    ∀ i j, IsPoly fun y => (M y ^ k) i j := by
  induction k with
  | zero =>
    intro i j
    simp only [pow_zero]
    exact IsPoly.const _
  | succ k ih =>
    intro i j
    simp only [pow_succ]
    exact IsPoly.matMul ih hM i j

theorem IsPoly.det {i : Type*} [Fintype i] [DecidableEq i] {M : (g → ℂ) → Matrix i i ℂ}
    (hM : ∀ a b, IsPoly fun y => M y a b) : IsPoly fun y => (M y).det := by
  simp only [Matrix.det_apply']
  exact IsPoly.sum _ fun σ => (IsPoly.const _).mul (IsPoly.prod _ fun k => hM _ _)

/-- The orbitals after a step are polynomials of the shifted fields. -/
theorem move_poly {i : Type*} (S : Setup p ia ib g) (E : Matrix p p ℂ) (phi : Matrix p i ℂ) :
    ∀ a k, ∃ P : MvPolynomial g ℂ, ∀ (x : g → ℝ) (xb : g → ℂ),
      move S (fieldOp S x xb) E phi a k = MvPolynomial.eval (xshift x xb) P := by
  intro a k
  have h : IsPoly fun y : g → ℂ => (E * expOpOne ((Complex.I * (Real.sqrt S.dt : ℂ)) •
      ∑ γ, y γ • S.L γ) (E * phi) S.order) a k := by
    refine IsPoly.matMul (M := fun _ => E) (fun _ _ => IsPoly.const _) (fun b c => ?_) a k
    simp only [taylor_sum, Matrix.sum_apply, Matrix.smul_apply, smul_eq_mul]
    refine IsPoly.sum _ fun n => (IsPoly.const _).mul
      (IsPoly.matMul (N := fun _ => E * phi) (IsPoly.matPow (fun q r => ?_) n)
        (fun _ _ => IsPoly.const _) b c)
    simp only [Matrix.smul_apply, Matrix.sum_apply, smul_eq_mul]
    exact (IsPoly.const _).mul (IsPoly.sum _ fun γ => (IsPoly.var γ).mul (IsPoly.const _))
  obtain ⟨P, hP⟩ := h
  exact ⟨P, fun x xb => hP (xshift x xb)⟩

theorem overlap_poly (S : Setup p ia ib g) (w : Walker p ia ib) (Da : Matrix p ia ℂ)
    (Db : Matrix p ib ℂ) : ∃ P : MvPolynomial g ℂ, ∀ (x : g → ℝ) (xb : g → ℂ),
      overlap Da (move S (fieldOp S x xb) (S.expH 0) w.phia)
        (beta S.two (Db, move S (fieldOp S x xb) (S.expH 1) w.phib)) =
      MvPolynomial.eval (xshift x xb) P := by
  choose Pa hPa using move_poly S (S.expH 0) w.phia
  choose Pb hPb using move_poly S (S.expH 1) w.phib
  obtain ⟨A, hA⟩ : IsPoly fun y : g → ℂ =>
      (ovlpMatrix Da (Matrix.of fun a k => MvPolynomial.eval y (Pa a k))).det :=
    IsPoly.det fun a b => IsPoly.matMul (M := fun y => (Matrix.of fun a k =>
      MvPolynomial.eval y (Pa a k))ᵀ) (N := fun _ => conj Da) (fun i j => ⟨Pa j i, fun y => rfl⟩)
      (fun _ _ => IsPoly.const _) a b
  obtain ⟨B, hB⟩ : IsPoly fun y : g → ℂ =>
      (ovlpMatrix Db (Matrix.of fun a k => MvPolynomial.eval y (Pb a k))).det :=
    IsPoly.det fun a b => IsPoly.matMul (M := fun y => (Matrix.of fun a k =>
      MvPolynomial.eval y (Pb a k))ᵀ) (N := fun _ => conj Db) (fun i j => ⟨Pb j i, fun y => rfl⟩)
      (fun _ _ => IsPoly.const _) a b
  have ea : ∀ x xb, move S (fieldOp S x xb) (S.expH 0) w.phia =
      Matrix.of fun a k => MvPolynomial.eval (xshift x xb) (Pa a k) := by
    intro x xb
    ext a k
    exact hPa a k x xb
  have eb : ∀ x xb, move S (fieldOp S x xb) (S.expH 1) w.phib =
      Matrix.of fun a k => MvPolynomial.eval (xshift x xb) (Pb a k) := by
    intro x xb
    ext a k
    exact hPb a k x xb
  cases ht : S.two with
  | false =>
    refine ⟨A * A, fun x xb => ?_⟩
    rw [ea, map_mul, ← hA (xshift x xb)]
    simp only [beta, Bool.false_eq_true, if_false, overlap]
  | true =>
    refine ⟨A * B, fun x xb => ?_⟩
    rw [ea, eb, map_mul, ← hA (xshift x xb), ← hB (xshift x xb)]
    simp only [beta, if_true, overlap]

/-- **C107.** Average over the fields of a step, with the factors `cfb` and `cmf` of the code:
the overlap of the new walker with an arbitrary determinant does not depend on the force bias.
It is the same for every complex (and bounded) bias as without one. -/
theorem force_bias_irrelevant (S : Setup p ia ib g) (w : Walker p ia ib) (xb : g → ℂ)
    (Da : Matrix p ia ℂ) (Db : Matrix p ib ℂ) :
    ∫ x : g → ℝ, (normalDensity x : ℂ) * (Complex.exp (cfb x xb + cmf S.dt x xb S.lbar) *
      overlap Da (move S (fieldOp S x xb) (S.expH 0) w.phia)
        (beta S.two (Db, move S (fieldOp S x xb) (S.expH 1) w.phib))) =
    ∫ x : g → ℝ, (normalDensity x : ℂ) * (Complex.exp (-(Complex.I * (Real.sqrt S.dt : ℂ)) *
        ∑ γ, x γ * S.lbar γ) *
      overlap Da (S.expH 0 * expOpOne ((Complex.I * (Real.sqrt S.dt : ℂ)) • ∑ γ, (x γ : ℂ) • S.L γ)
          (S.expH 0 * w.phia) S.order)
        (beta S.two (Db, S.expH 1 * expOpOne ((Complex.I * (Real.sqrt S.dt : ℂ)) •
          ∑ γ, (x γ : ℂ) • S.L γ) (S.expH 1 * w.phib) S.order))) := by
  obtain ⟨P, hP⟩ := overlap_poly S w Da Db
  have e : ∀ x : g → ℝ, fieldOp S x 0 = (Complex.I * (Real.sqrt S.dt : ℂ)) •
      ∑ γ, (x γ : ℂ) • S.L γ := by
    intro x
    simp [fieldOp, xshift]
  have e0 : ∀ x : g → ℝ, cfb x 0 + cmf S.dt x 0 S.lbar =
      -(Complex.I * (Real.sqrt S.dt : ℂ)) * ∑ γ, x γ * S.lbar γ := by
    intro x
    simp only [cfb, cmf, xshift, mfShift, Pi.zero_apply, mul_zero, sub_zero,
      Finset.sum_const_zero, zero_add]
    rw [Finset.mul_sum, Finset.mul_sum]
    exact Finset.sum_congr rfl fun γ _ => by ring
  simp_rw [hP, ← e, ← e0]
  rw [poly_shift]
  simp_rw [← hP]
  rfl

/-- **C107, for the step of the code.** The product of the factors and of the overlap with the
trial after a step (zero if the new overlap vanishes, which the code cannot handle), averaged over
the fields: the force bias computed and bounded by the code drops out. -/
theorem step_mean (S : Setup p ia ib g) (eshift : ℂ) (w : Walker p ia ib)
    (k : Matrix p ia ℂ × Matrix p ib ℂ) (hk : halves S w.phia w.phib = some k)
    (hs : S.scheme = some "hybrid" ∨ S.scheme = some "local") :
    ∫ x : g → ℝ, (normalDensity x : ℂ) *
      (match step S eshift x w with
        | .ok w' => Complex.exp (cfb x (xbar S k) + cmf S.dt x (xbar S k) S.lbar) *
            overlap S.Ta w'.phia (beta S.two (S.Tb, w'.phib))
        | .error _ => 0) =
    ∫ x : g → ℝ, (normalDensity x : ℂ) * (Complex.exp (-(Complex.I * (Real.sqrt S.dt : ℂ)) *
        ∑ γ, x γ * S.lbar γ) *
      overlap S.Ta (S.expH 0 * expOpOne ((Complex.I * (Real.sqrt S.dt : ℂ)) • ∑ γ, (x γ : ℂ) • S.L γ)
          (S.expH 0 * w.phia) S.order)
        (beta S.two (S.Tb, S.expH 1 * expOpOne ((Complex.I * (Real.sqrt S.dt : ℂ)) •
          ∑ γ, (x γ : ℂ) • S.L γ) (S.expH 1 * w.phib) S.order))) := by
  rw [← force_bias_irrelevant S w (xbar S k) S.Ta S.Tb]
  congr 1
  funext x
  congr 1
  have hb : overlap S.Ta (move S (fieldOp S x (xbar S k)) (S.expH 0) w.phia)
      (beta S.two (S.Tb, if S.two then move S (fieldOp S x (xbar S k)) (S.expH 1) w.phib
        else w.phib)) =
      overlap S.Ta (move S (fieldOp S x (xbar S k)) (S.expH 0) w.phia)
      (beta S.two (S.Tb, move S (fieldOp S x (xbar S k)) (S.expH 1) w.phib)) := by
    cases S.two <;> simp [beta]
  cases h : step S eshift x w with
  | ok w' =>
    obtain ⟨k', h1, h2, h3, _⟩ := step_ok h
    rw [hk, Option.some.injEq] at h1
    subst h1
    simp only
    rw [h2, h3, hb]
  | error m =>
    simp only
    rw [← hb]
    unfold step at h
    simp only [hk] at h
    by_cases h0 : ovlp S (move S (fieldOp S x (xbar S k)) (S.expH 0) w.phia)
        (if S.two then move S (fieldOp S x (xbar S k)) (S.expH 1) w.phib else w.phib) = 0
    · unfold ovlp at h0
      rw [h0, mul_zero]
    · exfalso
      rw [if_neg h0] at h
      rcases hs with hs | hs <;> simp [updateWeight, hs] at h

/-- **C71, for the step of the code.** The force bias of a step is the bounded
`-sqrt(dt) (i v - i ⟨L⟩)`, where `v` is the logarithmic derivative of the overlap of the whole walker
along the field operator. -/
theorem step_bias (S : Setup p ia ib g) (a : Matrix p ia ℂ) (b : Matrix p ib ℂ)
    (k : Matrix p ia ℂ × Matrix p ib ℂ) (hk : halves S a b = some k) (γ : g) :
    ∃ v : ℂ, HasDerivAt (fun t : ℂ => overlap S.Ta ((1 + t • S.L γ) * a)
        (beta S.two (S.Tb, (1 + t • S.L γ) * b)))
        (overlap S.Ta a (beta S.two (S.Tb, b)) * v) 0 ∧
      xbar S k γ = rescaleFbias S.bound
        (-(Real.sqrt S.dt : ℂ) * (Complex.I * v - Complex.I * S.lbar γ)) := by
  unfold halves at hk
  cases ha : ghalf S.Ta a with
  | none => rw [ha] at hk; simp at hk
  | some ka =>
    simp only [ha] at hk
    cases ht : S.two with
    | false =>
      simp only [ht, Bool.false_eq_true, if_false, Option.some.injEq] at hk
      subst hk
      refine ⟨getVbias (i' := ib) S.L S.Ta ka none γ, ?_, ?_⟩
      · have da := overlap_derivative S.Ta a (S.L γ) ka ha
        have ea : (ovlpMatrix S.Ta ((1 + (0 : ℂ) • S.L γ) * a)).det = (ovlpMatrix S.Ta a).det := by
          simp
        have := da.mul da
        rw [ea] at this
        simp only [beta, Bool.false_eq_true, if_false]
        refine this.congr_deriv ?_
        simp only [overlap, getVbias]
        ring
      · simp only [xbar, xbarRaw, mfShift, beta, ht, Bool.false_eq_true, if_false]
    | true =>
      simp only [ht, if_true, Option.map_eq_some_iff] at hk
      obtain ⟨kb, hb, rfl⟩ := hk
      refine ⟨getVbias S.L S.Ta ka (some (S.Tb, kb)) γ, ?_, ?_⟩
      · simp only [beta, if_true]
        exact (vbias_log_derivative S.L γ S.Ta a ka ha S.Tb b kb hb).2
      · simp only [xbar, xbarRaw, mfShift, beta, ht, if_true]

/-- A walker of one orbital in two basis functions whose Green's function exists: the hypothesis of
`step_mean` holds, with two fields and a complex mean-field shift. -/
example : ∃ k, halves (p := Fin 2) (ia := Fin 1) (ib := Fin 1) (g := Fin 2)
    ⟨false, 1 / 100, 6, 1, some "hybrid", fun _ => 1, fun γ => if γ = 0 then !![0, 1; 1, 0] else
      !![1, 0; 0, 2], fun _ => Complex.I, !![1; 0], !![1; 0]⟩ !![2; 3] !![2; 3] = some k := by
  have h : (ovlpMatrix (!![1; 0] : Matrix (Fin 2) (Fin 1) ℂ) !![2; 3]).det ≠ 0 := by
    simp [ovlpMatrix, conj, Matrix.mul_apply]
  simp only [halves, ghalf, Green.inv, if_neg h, Option.map_some, Bool.false_eq_true, if_false]
  exact ⟨_, rfl⟩

end OpenMS.Step
