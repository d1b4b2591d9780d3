import Verif.Model.FciIntegrals
import Verif.Props.QedFciElec
import Mathlib.LinearAlgebra.Matrix.NonsingularInverse

/-!
# C135: integrals for the full CI with bosons
-/

namespace OpenMS.FciIntegrals
open Matrix OpenMS.QedFci
set_option linter.unusedSectionVars false

variable {nm nao m : ℕ} {Sa Sb : Type*} [Fintype Sa] [Fintype Sb] [DecidableEq Sa] [DecidableEq Sb]

/-- The operator `Σ g_pq E_pq`. -/
noncomputable def oneBody (ta : Table (Fin nao) Sa) (tb : Table (Fin nao) Sb) (g : Fin nao → Fin nao → ℝ)
    (c : Sa × Sb → (Fin m → ℕ) → ℝ) : Sa × Sb → (Fin m → ℕ) → ℝ :=
  fun s σ => ∑ p, ∑ q, g p q * exc ta tb p q c s σ

/-- C135: the self energy in the integrals is half the sum of the squares of the coupling operators, for
all couplings, integrals, link tables and vectors. -/
theorem dse_operator (ta : Table (Fin nao) Sa) (tb : Table (Fin nao) Sb) (h : Fin nao → Fin nao → ℝ)
    (eri : Fin nao → Fin nao → Fin nao → Fin nao → ℝ) (G : Fin nm → Fin nao → Fin nao → ℝ)
    (c : Sa × Sb → (Fin m → ℕ) → ℝ) (s : Sa × Sb) (σ : Fin m → ℕ) :
    elecH ta tb (hcoreDse h G) (eriDse eri G) c s σ =
      elecH ta tb h eri c s σ + 1 / 2 * ∑ X, oneBody ta tb (G X) (oneBody ta tb (G X) c) s σ := by
  have hsq : ∀ X, oneBody ta tb (G X) (oneBody ta tb (G X) c) s σ =
      ∑ p, ∑ q, ∑ r, ∑ t, G X p q * G X r t * exc ta tb p q (exc ta tb r t c) s σ := by
    intro X
    unfold oneBody
    refine Finset.sum_congr rfl fun p _ => Finset.sum_congr rfl fun q _ => ?_
    have := exc_sum (Finset.univ : Finset (Fin nao × Fin nao)) ta tb p q (fun x => G X x.1 x.2)
      (fun x => exc ta tb x.1 x.2 c) s σ
    simp only [Fintype.sum_prod_type] at this
    rw [this, Finset.mul_sum]
    refine Finset.sum_congr rfl fun r _ => ?_
    rw [Finset.mul_sum]
    exact Finset.sum_congr rfl fun t _ => by ring
  have hone : ∀ X, ∑ p, ∑ t, (∑ q, G X p q * G X q t) * exc ta tb p t c s σ =
      ∑ p, ∑ q, ∑ r, ∑ t, G X p q * G X r t * (if q = r then exc ta tb p t c s σ else 0) := by
    intro X
    refine Finset.sum_congr rfl fun p _ => ?_
    simp only [Finset.sum_mul]
    rw [Finset.sum_comm]
    refine Finset.sum_congr rfl fun q _ => ?_
    symm
    rw [Finset.sum_eq_single q]
    · simp
    · intro r _ hr; simp [Ne.symm hr]
    · simp
  have sw2 : ∀ f : Fin nm → Fin nao → Fin nao → ℝ, ∑ p, ∑ t, ∑ X, f X p t = ∑ X, ∑ p, ∑ t, f X p t := fun f =>
    (Finset.sum_congr rfl fun p _ => Finset.sum_comm).trans Finset.sum_comm
  have sw4 : ∀ f : Fin nm → Fin nao → Fin nao → Fin nao → Fin nao → ℝ,
      ∑ p, ∑ q, ∑ r, ∑ t, ∑ X, f X p q r t = ∑ X, ∑ p, ∑ q, ∑ r, ∑ t, f X p q r t := fun f =>
    (Finset.sum_congr rfl fun p _ => Finset.sum_congr rfl fun q _ => sw2 fun X r t => f X p q r t).trans
      (sw2 fun X p q => ∑ r, ∑ t, f X p q r t)
  have hA : ∑ p, ∑ t, hcoreDse h G p t * exc ta tb p t c s σ = ∑ p, ∑ t, h p t * exc ta tb p t c s σ +
      1 / 2 * ∑ X, ∑ p, ∑ t, (∑ q, G X p q * G X q t) * exc ta tb p t c s σ := by
    rw [← sw2]
    simp only [hcoreDse, add_mul, Finset.sum_add_distrib, Finset.mul_sum, Finset.sum_mul, mul_assoc]
  have hB : ∀ K : Fin nao → Fin nao → Fin nao → Fin nao → ℝ,
      ∑ p, ∑ q, ∑ r, ∑ t, eriDse eri G p q r t * K p q r t = ∑ p, ∑ q, ∑ r, ∑ t, eri p q r t * K p q r t +
      ∑ X, ∑ p, ∑ q, ∑ r, ∑ t, G X p q * G X r t * K p q r t := by
    intro K
    rw [← sw4]
    simp only [eriDse, add_mul, Finset.sum_add_distrib, Finset.sum_mul]
  unfold elecH
  rw [hA, hB]
  have hX : ∀ X, ∑ p, ∑ q, ∑ r, ∑ t, G X p q * G X r t *
      (exc ta tb p q (exc ta tb r t c) s σ - if q = r then exc ta tb p t c s σ else 0) =
      oneBody ta tb (G X) (oneBody ta tb (G X) c) s σ -
        ∑ p, ∑ t, (∑ q, G X p q * G X q t) * exc ta tb p t c s σ := by
    intro X
    rw [hsq, hone]
    simp only [mul_sub, Finset.sum_sub_distrib]
  simp only [hX, Finset.sum_sub_distrib]
  ring

theorem gmatLo_eq (g : Fin nm → Matrix (Fin nao) (Fin nao) ℝ) (C : Matrix (Fin nao) (Fin nao) ℝ) (X : Fin nm) :
    Matrix.of (gmatLo g C X) = Cᵀ * g X * C := by
  ext i j
  simp only [Matrix.of_apply, gmatLo, Matrix.mul_apply, Matrix.transpose_apply, Finset.sum_mul]
  rw [Finset.sum_comm]
  exact Finset.sum_congr rfl fun q _ => Finset.sum_congr rfl fun p _ => by ring

/-- C135: with one mode the coupling matrix is the documented one in the orthogonal basis. -/
theorem hep_partial (g : Fin 1 → Matrix (Fin nao) (Fin nao) ℝ) (freq : Fin 1 → ℝ)
    (C : Matrix (Fin nao) (Fin nao) ℝ) :
    hep g freq C = some fun X => Cᵀ * (√(freq X / 2) • g X) * C := by
  unfold hep bilinear
  rw [dif_pos rfl, Option.map_some]
  congr 1
  funext X
  have hX : X = 0 := Subsingleton.elim _ _
  subst hX
  ext i j
  simp only [Matrix.of_apply, Matrix.mul_apply, Matrix.transpose_apply, Finset.sum_mul, Matrix.smul_apply,
    smul_eq_mul]
  rw [Finset.sum_comm]
  exact Finset.sum_congr rfl fun q _ => Finset.sum_congr rfl fun p _ => by
    rw [show (⟨0, by omega⟩ : Fin 1) = 0 from rfl]; ring

/-- C135: with two or more modes the function raises unless there are as many modes as orbitals. -/
theorem hep_fails (g : Fin nm → Matrix (Fin nao) (Fin nao) ℝ) (freq : Fin nm → ℝ)
    (C : Matrix (Fin nao) (Fin nao) ℝ) (h1 : nm ≠ 1) (h : nm ≠ nao) : hep g freq C = none := by
  unfold hep bilinear
  rw [dif_neg h1, dif_neg h]; rfl

/-- C135: with as many modes as orbitals the frequencies scale the columns; in any orthogonal basis the
result is the documented one for all couplings exactly if all frequencies (of positive value) are equal. -/
theorem hep_square_iff (freq : Fin nao → ℝ) (hn : nao ≠ 1) (C : Matrix (Fin nao) (Fin nao) ℝ)
    (hC : IsUnit C) (hpos : ∀ X, 0 ≤ freq X) :
    (∀ g : Fin nao → Matrix (Fin nao) (Fin nao) ℝ,
      hep g freq C = some fun X => Cᵀ * (√(freq X / 2) • g X) * C) ↔ ∀ X Y, freq X = freq Y := by
  have hh : ∀ g : Fin nao → Matrix (Fin nao) (Fin nao) ℝ, hep g freq C =
      some fun X => Cᵀ * (Matrix.of fun p q => g X p q * √(freq q / 2)) * C := by
    intro g
    unfold hep bilinear
    rw [dif_neg hn, dif_pos rfl, Option.map_some]
    congr 1
    funext X
    ext i j
    simp only [Matrix.of_apply, Matrix.mul_apply, Matrix.transpose_apply, Finset.sum_mul]
    rw [Finset.sum_comm]
    exact Finset.sum_congr rfl fun q _ => Finset.sum_congr rfl fun p _ => by
      rw [show Fin.cast rfl q = q from rfl]; ring
  have hCt : IsUnit Cᵀ := (Matrix.isUnit_transpose C).2 hC
  constructor
  · intro H X Y
    have := H fun _ => 1
    rw [hh, Option.some.injEq] at this
    have hX := congrFun this X
    have hX' := hCt.mul_left_cancel (hC.mul_right_cancel hX)
    have := congrFun (congrFun hX' Y) Y
    simp only [Matrix.of_apply, Matrix.one_apply_eq, one_mul, Matrix.smul_apply, smul_eq_mul, mul_one] at this
    have e1 := Real.sqrt_inj (div_nonneg (hpos Y) (zero_le_two (α := ℝ))) (div_nonneg (hpos X) (zero_le_two (α := ℝ)))
    have := e1.1 this
    linarith
  · intro H g
    rw [hh]
    congr 1
    funext X
    congr 2
    ext p q
    rw [Matrix.of_apply, Matrix.smul_apply, smul_eq_mul, H q X, mul_comm]

/-- C135: the density matrix of the code. -/
theorem dm_eq (D S C : Matrix (Fin nao) (Fin nao) ℝ) (hC : Cᵀ * S * C = 1) :
    dmOrth D S C = Cᵀ * D * C := by
  unfold dmOrth transform
  simp only [hC, one_mul]

/-- The density matrix in the orthogonal basis has the number of electrons as its trace. -/
theorem dm_right_trace (D S C : Matrix (Fin nao) (Fin nao) ℝ) (hS : Sᵀ = S) (hC : Cᵀ * S * C = 1) :
    (transform D (S * C)).trace = (D * S).trace := by
  unfold transform
  rw [Matrix.transpose_mul, hS]
  have h2 : C * (Cᵀ * S) = 1 := mul_eq_one_comm.1 hC
  rw [Matrix.trace_mul_comm, ← mul_assoc, Matrix.mul_assoc S C, ← Matrix.mul_assoc, Matrix.mul_assoc S, h2, mul_one,
    Matrix.trace_mul_comm]

/-- C135: the returned density matrix counts the electrons of every density exactly if the basis is
orthonormal to begin with up to signs (`S S = 1`). -/
theorem dm_trace_iff (S C : Matrix (Fin nao) (Fin nao) ℝ) (hC : Cᵀ * S * C = 1) :
    (∀ D : Matrix (Fin nao) (Fin nao) ℝ, (dmOrth D S C).trace = (D * S).trace) ↔ S * S = 1 := by
  have h2 : C * (Cᵀ * S) = 1 := mul_eq_one_comm.1 hC
  have h3 : (C * Cᵀ) * S = 1 := by rw [Matrix.mul_assoc]; exact h2
  have h4 : S * (C * Cᵀ) = 1 := mul_eq_one_comm.1 h3
  have ht : ∀ D : Matrix (Fin nao) (Fin nao) ℝ, (dmOrth D S C).trace = (D * (C * Cᵀ)).trace := by
    intro D
    rw [dm_eq D S C hC, Matrix.trace_mul_comm, ← Matrix.mul_assoc, Matrix.trace_mul_comm]
  constructor
  · intro H
    have : C * Cᵀ = S := by
      refine Matrix.ext_iff_trace_mul_left.2 fun D => ?_
      rw [← ht, H]
    rw [← this] at h4 ⊢
    exact h4
  · intro H D
    rw [ht]
    have : C * Cᵀ = S := by
      calc C * Cᵀ = (S * S) * (C * Cᵀ) := by rw [H, one_mul]
        _ = S * (S * (C * Cᵀ)) := by rw [Matrix.mul_assoc]
        _ = S := by rw [h4, mul_one]
    rw [this]

/-- C135: one orbital with an overlap other than one loses or gains electrons for every density. -/
theorem dm_fails (d s : ℝ) (hs : 0 < s) (hs1 : s ≠ 1) (hd : d ≠ 0) :
    ∃ D S C : Matrix (Fin 1) (Fin 1) ℝ, D 0 0 = d ∧ S 0 0 = s ∧ Cᵀ * S * C = 1 ∧
      (dmOrth D S C).trace ≠ (D * S).trace := by
  have hC : (Matrix.of fun _ _ : Fin 1 => 1 / √s)ᵀ * (Matrix.of fun _ _ : Fin 1 => s) *
      (Matrix.of fun _ _ : Fin 1 => 1 / √s) = 1 := by
    ext i j
    have : √s * √s = s := Real.mul_self_sqrt hs.le
    have h0 : √s ≠ 0 := (Real.sqrt_pos.2 hs).ne'
    rw [Subsingleton.elim i j, Matrix.one_apply_eq]
    simp only [Matrix.mul_apply, Matrix.transpose_apply, Matrix.of_apply, Finset.univ_unique, Finset.sum_singleton]
    field_simp
    nlinarith
  refine ⟨Matrix.of fun _ _ => d, Matrix.of fun _ _ => s, Matrix.of fun _ _ => 1 / √s, rfl, rfl, hC, ?_⟩
  rw [dm_eq _ _ _ hC]
  have : √s * √s = s := Real.mul_self_sqrt hs.le
  have h0 : √s ≠ 0 := (Real.sqrt_pos.2 hs).ne'
  simp only [Matrix.trace, Matrix.diag, Matrix.mul_apply, Matrix.transpose_apply, Matrix.of_apply,
    Finset.univ_unique, Finset.sum_singleton]
  intro hh
  have e : 1 / √s * d * (1 / √s) = d / s := by
    field_simp
    rw [Real.sq_sqrt hs.le]
  rw [e, div_eq_iff hs.ne', mul_assoc] at hh
  have h1 : s * s = 1 := mul_left_cancel₀ hd (by rw [mul_one]; exact hh.symm)
  exact hs1 (by nlinarith)

/-- One orbital of overlap four, orthogonalised by one half, meets the hypothesis of the density
theorems. -/
example : (Matrix.of fun _ _ : Fin 1 => (1 / 2 : ℝ))ᵀ * (Matrix.of fun _ _ : Fin 1 => (4 : ℝ)) *
    (Matrix.of fun _ _ : Fin 1 => (1 / 2 : ℝ)) = 1 := by
  ext i j
  rw [Subsingleton.elim i j, Matrix.one_apply_eq]
  simp only [Matrix.mul_apply, Matrix.transpose_apply, Matrix.of_apply, Finset.univ_unique, Finset.sum_singleton]
  norm_num

/-- Two modes and three orbitals: the function raises. -/
example (g : Fin 2 → Matrix (Fin 3) (Fin 3) ℝ) (freq : Fin 2 → ℝ) (C : Matrix (Fin 3) (Fin 3) ℝ) :
    hep g freq C = none := hep_fails g freq C (by decide) (by decide)


end OpenMS.FciIntegrals
