import Verif.Model.Step
import Verif.Props.Propagate
import Mathlib.Analysis.Normed.Algebra.Exponential
import Mathlib.Analysis.Normed.Algebra.MatrixExponential
import Mathlib.Tactic

/-!
# Accuracy of the symmetric splitting of one step
-/

set_option linter.unusedSectionVars false

namespace OpenMS.Step

open Matrix OpenMS.Propagators Filter Topology Asymptotics

section Algebra

variable {A : Type*} [NormedRing A] [NormedAlgebra ℂ A]

/-- `f t = a + t b + t² c + O(t³)` for small `t`. -/
def Expands (f : ℝ → A) (a b c : A) : Prop :=
  (fun t : ℝ => f t - (a + (t : ℂ) • b + ((t : ℂ) ^ 2) • c)) =O[𝓝 0] fun t : ℝ => t ^ 3

theorem smul_pow_isBigO (x : A) (k : ℕ) :
    (fun t : ℝ => ((t : ℂ) ^ (k + 3)) • x) =O[𝓝 0] fun t : ℝ => t ^ 3 := by
  have h : (fun t : ℝ => ((t : ℂ) ^ k) • x) =O[𝓝 0] fun _ : ℝ => (1 : ℝ) := by
    refine Tendsto.isBigO_one ℝ (Continuous.tendsto ?_ 0)
    fun_prop
  have h3 : (fun t : ℝ => ((t : ℂ) ^ 3)) =O[𝓝 0] fun t : ℝ => t ^ 3 :=
    IsBigO.of_bound 1 (Eventually.of_forall fun t => by simp)
  have := h3.smul h
  simp only [smul_smul, smul_eq_mul, mul_one, ← pow_add] at this
  simpa [add_comm] using this

theorem Expands.mul {f g : ℝ → A} {a b c a' b' c' : A} (hf : Expands f a b c)
    (hg : Expands g a' b' c') :
    Expands (fun t => f t * g t) (a * a') (a * b' + b * a') (a * c' + b * b' + c * a') := by
  unfold Expands at *
  have hone : ∀ x y z : A, (fun t : ℝ => x + (t : ℂ) • y + ((t : ℂ) ^ 2) • z) =O[𝓝 0]
      fun _ : ℝ => (1 : ℝ) := fun x y z => by
    refine Tendsto.isBigO_one ℝ (Continuous.tendsto ?_ 0)
    fun_prop
  have h3 : (fun t : ℝ => t ^ 3) =O[𝓝 0] fun _ : ℝ => (1 : ℝ) := by
    refine Tendsto.isBigO_one ℝ (Continuous.tendsto ?_ 0)
    fun_prop
  have hg1 : g =O[𝓝 0] fun _ : ℝ => (1 : ℝ) := by
    have := (hg.trans h3).add (hone a' b' c')
    simpa using this
  have e1 := hf.mul hg1
  have e2 := (hone a b c).mul hg
  have e3 := (smul_pow_isBigO (b * c' + c * b') 0).add (smul_pow_isBigO (c * c') 1)
  simp only [mul_one, one_mul] at e1 e2
  refine ((e1.add e2).add e3).congr_left fun t => ?_
  simp only [sub_mul, mul_sub, add_mul, mul_add, smul_add, mul_smul_comm, smul_mul_assoc, smul_smul,
    zero_add, ← pow_add, ← pow_succ, ← pow_succ']
  norm_num
  simp only [pow_two]
  abel

theorem Expands.congr {f : ℝ → A} {a b c a' b' c' : A} (hf : Expands f a b c) (ha : a = a')
    (hb : b = b') (hc : c = c') : Expands f a' b' c' := by subst ha hb hc; exact hf

variable [CompleteSpace A]

theorem exp_expands (X : A) :
    Expands (fun t : ℝ => NormedSpace.exp ((t : ℂ) • X)) 1 X ((1 / 2 : ℂ) • (X * X)) := by
  have h := (NormedSpace.exp_hasFPowerSeriesAt_zero (𝕂 := ℂ) (𝔸 := A)).isBigO_sub_partialSum_pow 3
  have hc : Tendsto (fun t : ℝ => (t : ℂ) • X) (𝓝 0) (𝓝 0) := by
    have : Continuous fun t : ℝ => (t : ℂ) • X := by fun_prop
    simpa using this.tendsto 0
  have h2 := h.comp_tendsto hc
  refine (h2.congr_left fun t => ?_).trans ?_
  · simp only [Function.comp_apply, zero_add, FormalMultilinearSeries.partialSum,
      Finset.sum_range_succ, Finset.sum_range_zero, NormedSpace.expSeries_apply_eq]
    have e : ((Nat.factorial 2 : ℂ)⁻¹) • ((t : ℂ) • X) ^ 2 =
        ((t : ℂ) ^ 2) • ((1 / 2 : ℂ) • (X * X)) := by
      rw [smul_pow, smul_smul, smul_smul, pow_two X]
      congr 1
      norm_num [Nat.factorial]
      ring
    rw [e]
    simp
  · refine IsBigO.of_bound (‖X‖ ^ 3) (Eventually.of_forall fun t => ?_)
    simp only [Function.comp_apply, norm_pow, norm_smul, Complex.norm_real,
      Real.norm_eq_abs, mul_pow]
    rw [mul_comm, abs_of_nonneg (by positivity)]

theorem exp_half_expands (X : A) : Expands (fun t : ℝ => NormedSpace.exp ((t / 2 : ℂ) • X)) 1
    ((1 / 2 : ℂ) • X) ((1 / 8 : ℂ) • (X * X)) := by
  have := exp_expands ((1 / 2 : ℂ) • X)
  simp only [smul_smul, mul_smul_comm, smul_mul_assoc] at this
  convert this using 3
  · ring_nf
  · norm_num

/-- **C106.** Half a one-body step, a field step and half a one-body step agree with the exponential
of the sum up to third order in the time step, in every Banach algebra (in particular for the
operators on Fock space with finitely many orbitals). -/
theorem splitting (X Y : A) :
    (fun t : ℝ => NormedSpace.exp ((t / 2 : ℂ) • X) * NormedSpace.exp ((t : ℂ) • Y) *
      NormedSpace.exp ((t / 2 : ℂ) • X) - NormedSpace.exp ((t : ℂ) • (X + Y)))
      =O[𝓝 0] fun t : ℝ => t ^ 3 := by
  have hX := exp_half_expands X
  have h := (hX.mul (exp_expands Y)).mul hX
  have h' := h.congr (a' := 1) (b' := X + Y) (c' := (1 / 2 : ℂ) • ((X + Y) * (X + Y))) (by simp)
    (by
      simp only [one_mul, mul_one]
      module)
    (by
      simp only [one_mul, mul_one, add_mul, mul_add, smul_add, mul_smul_comm, smul_mul_assoc,
        smul_smul]
      module)
  unfold Expands at h'
  have h2 := exp_expands (X + Y)
  unfold Expands at h2
  refine (h'.sub h2).congr_left fun t => ?_
  abel

theorem Expands.add_smul_pow {f : ℝ → A} {a b c : A} (hf : Expands f a b c) (x : A) (k : ℕ) :
    Expands (fun t => f t + ((t : ℂ) ^ (k + 3)) • x) a b c := by
  unfold Expands at *
  refine (hf.add (smul_pow_isBigO x k)).congr_left fun t => ?_
  exact sub_add_eq_add_sub _ _ _

/-- The Taylor sum of order two or more agrees with the exponential up to third order. -/
theorem taylor_expands (Y : A) (m : ℕ) :
    Expands (fun t : ℝ => ∑ k ∈ Finset.range (m + 3), ((k.factorial : ℂ)⁻¹) • ((t : ℂ) • Y) ^ k)
      1 Y ((1 / 2 : ℂ) • (Y * Y)) := by
  induction m with
  | zero =>
    unfold Expands
    refine (isBigO_zero (E' := A) (fun t : ℝ => t ^ 3) (𝓝 0)).congr_left fun t => ?_
    have e : ((Nat.factorial 2 : ℂ)⁻¹) • ((t : ℂ) • Y) ^ 2 =
        ((t : ℂ) ^ 2) • ((1 / 2 : ℂ) • (Y * Y)) := by
      rw [smul_pow, smul_smul, smul_smul, pow_two Y]
      congr 1
      norm_num [Nat.factorial]
      ring
    simp only [zero_add, Finset.sum_range_succ, Finset.sum_range_zero, e]
    simp
  | succ m ih =>
    have h := ih.add_smul_pow (((m + 3).factorial : ℂ)⁻¹ • Y ^ (m + 3)) m
    unfold Expands at h ⊢
    refine h.congr_left fun t => ?_
    beta_reduce
    rw [show m + 1 + 3 = (m + 3) + 1 from rfl, Finset.sum_range_succ _ (m + 3), smul_pow,
      smul_comm]

/-- The same for the symmetric splitting with a Taylor sum in the middle. -/
theorem splitting_taylor (X Y : A) (m : ℕ) :
    (fun t : ℝ => NormedSpace.exp ((t / 2 : ℂ) • X) *
      (∑ k ∈ Finset.range (m + 3), ((k.factorial : ℂ)⁻¹) • ((t : ℂ) • Y) ^ k) *
      NormedSpace.exp ((t / 2 : ℂ) • X) - NormedSpace.exp ((t : ℂ) • (X + Y)))
      =O[𝓝 0] fun t : ℝ => t ^ 3 := by
  have hX := exp_half_expands X
  have h := (hX.mul (taylor_expands Y m)).mul hX
  have h' := h.congr (a' := 1) (b' := X + Y) (c' := (1 / 2 : ℂ) • ((X + Y) * (X + Y))) (by simp)
    (by
      simp only [one_mul, mul_one]
      module)
    (by
      simp only [one_mul, mul_one, add_mul, mul_add, smul_add, mul_smul_comm, smul_mul_assoc,
        smul_smul]
      module)
  unfold Expands at h'
  have h2 := exp_expands (X + Y)
  unfold Expands at h2
  refine (h'.sub h2).congr_left fun t => ?_
  abel

end Algebra

variable {p ia ib g : Type*} [Fintype p] [DecidableEq p] [Fintype ia] [DecidableEq ia] [Fintype ib]
  [DecidableEq ib] [Fintype g]

/-- **C106.** The orbitals after one step of the code, with the one-body propagator `exp(-t h / 2)`
and the field operator `t V`, are `exp(t (V - h)) φ` up to third order in `t`, for every Taylor order
from two on. -/
theorem move_second_order {i : Type*} (S : Setup p ia ib g) (hS : 2 ≤ S.order)
    (h V : Matrix p p ℂ) (phi : Matrix p i ℂ) (a : p) (k : i) :
    (fun t : ℝ => move S ((t : ℂ) • V) (NormedSpace.exp ((-t / 2 : ℂ) • h)) phi a k -
      (NormedSpace.exp ((t : ℂ) • (V - h)) * phi) a k) =O[𝓝 0] fun t : ℝ => t ^ 3 := by
  let _ : NormedRing (Matrix p p ℂ) := Matrix.linftyOpNormedRing
  let _ : NormedAlgebra ℂ (Matrix p p ℂ) := Matrix.linftyOpNormedAlgebra
  obtain ⟨m, hm⟩ : ∃ m, S.order + 1 = m + 3 := ⟨S.order - 2, by omega⟩
  have hs := splitting_taylor (-h) V m
  have hl : (fun t : ℝ => ((NormedSpace.exp ((t / 2 : ℂ) • (-h)) *
      (∑ k ∈ Finset.range (m + 3), ((k.factorial : ℂ)⁻¹) • ((t : ℂ) • V) ^ k) *
      NormedSpace.exp ((t / 2 : ℂ) • (-h)) - NormedSpace.exp ((t : ℂ) • (-h + V))) * phi) a k)
      =O[𝓝 0] fun t : ℝ => t ^ 3 := by
    let F : Matrix p p ℂ →ₗ[ℂ] ℂ :=
      { toFun := fun M => (M * phi) a k
        map_add' := fun M N => by rw [Matrix.add_mul, Matrix.add_apply]
        map_smul' := fun c M => by rw [Matrix.smul_mul, Matrix.smul_apply, RingHom.id_apply] }
    exact ((LinearMap.toContinuousLinearMap F).isBigO_comp _ _).trans hs
  refine hl.congr_left fun t => ?_
  rw [move, taylor_sum, hm, Matrix.sub_mul, Matrix.sub_apply]
  have e1 : ((t / 2 : ℂ) • (-h)) = (-t / 2 : ℂ) • h := by
    rw [smul_neg, ← neg_smul, neg_div]
  rw [e1, neg_add_eq_sub]
  congr 2
  simp only [Matrix.mul_assoc, Matrix.sum_mul, Matrix.smul_mul]

/-- A setup of the default Taylor order with matrices that do not commute. -/
example : ∃ S : Setup (Fin 2) (Fin 1) (Fin 1) (Fin 1), 2 ≤ S.order ∧
    S.L 0 * S.expH 0 ≠ S.expH 0 * S.L 0 := by
  refine ⟨⟨false, 1 / 100, 6, 1, some "hybrid", fun _ => !![1, 0; 0, 2], fun _ => !![0, 1; 1, 0],
    0, !![1; 0], !![1; 0]⟩, by norm_num, fun h => ?_⟩
  have := congrFun (congrFun h 0) 1
  norm_num [Matrix.mul_apply, Fin.sum_univ_two] at this

end OpenMS.Step
