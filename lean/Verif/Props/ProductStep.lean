import Verif.Model.ProductStep
import Verif.Props.JointStep

/-!
# C112: the averaged step with a mean-field bilinear term
-/

set_option linter.unusedSectionVars false

namespace OpenMS.ProductStep

open Matrix OpenMS.Propagators OpenMS.Green OpenMS.Step OpenMS.Tensor OpenMS.GaussMean OpenMS.JointStep
open MeasureTheory Filter Topology Asymptotics
open scoped Kronecker

variable {e p g m b : Type*} [Fintype e] [DecidableEq e] [Fintype p] [DecidableEq p] [Fintype g]
  [Fintype m] [DecidableEq m] [Fintype b] [DecidableEq b]

/-- Specification: electrons and bosons with the bilinear coupling `Σ_X g_X (b† + b)_X` and a constant. -/
noncomputable def full (h : e → Matrix p p ℂ) (Hb : Matrix b b ℂ) (L : g → Matrix p p ℂ) (lbar : g → ℂ)
    (G : m → Matrix p p ℂ) (q : m → Matrix b b ℂ) (shift : ℂ) : Matrix ((e → p) × b) ((e → p) × b) ℂ :=
  ManyBody.hamiltonian h L lbar ⊗ₖ (1 : Matrix b b ℂ) + (1 : Matrix (e → p) (e → p) ℂ) ⊗ₖ Hb +
    ∑ X, (∑ j, site j (G X)) ⊗ₖ q X + shift • 1

/-- Specification: the electrons in the field `Q` of the bosons and the bosons in the field `z` of the
electrons. -/
noncomputable def meanField (h : e → Matrix p p ℂ) (Hb : Matrix b b ℂ) (L : g → Matrix p p ℂ) (lbar : g → ℂ)
    (G : m → Matrix p p ℂ) (q : m → Matrix b b ℂ) (Q z : m → ℂ) : Matrix ((e → p) × b) ((e → p) × b) ℂ :=
  ManyBody.hamiltonian (fun j => h j + ∑ X, Q X • G X) L lbar ⊗ₖ (1 : Matrix b b ℂ) +
    (1 : Matrix (e → p) (e → p) ℂ) ⊗ₖ (Hb + ∑ X, z X • q X)

/-- Specification: `b† + b` of one mode. -/
noncomputable def position {n : m → ℕ} (X : m) : Matrix (Fock n) (Fock n) ℂ :=
  Matrix.of fun F G => if F.1 = X ∧ G.1 = X then
    (if (F.2 : ℕ) = G.2 + 1 then (Real.sqrt (F.2 : ℕ) : ℂ) else
      if (G.2 : ℕ) = F.2 + 1 then (Real.sqrt (G.2 : ℕ) : ℂ) else 0) else 0

theorem displacement_eq (a c : ℕ) : Energy.displacement a c =
    if a = c + 1 then (Real.sqrt a : ℂ) else if c = a + 1 then (Real.sqrt c : ℂ) else 0 := by
  unfold Energy.displacement
  by_cases h1 : a = c + 1
  · rw [if_neg (by omega), if_pos h1, zero_add]
  · rw [if_neg h1, if_neg h1, add_zero]

theorem adagPlusA_eq {n : m → ℕ} (z : m → ℂ) :
    (adagPlusA z : Matrix (Fock n) (Fock n) ℂ) = ∑ X, z X • position X := by
  ext F G
  rw [Matrix.sum_apply]
  simp only [adagPlusA, position, Matrix.of_apply, Matrix.smul_apply, smul_eq_mul]
  by_cases h : F.1 = G.1
  · rw [if_pos h, Finset.sum_eq_single F.1, if_pos ⟨rfl, h.symm⟩, displacement_eq]
    · ring
    · intro X _ hX
      rw [if_neg fun hh => hX hh.1.symm, mul_zero]
    · simp
  · rw [if_neg h]
    refine (Finset.sum_eq_zero fun X _ => ?_).symm
    rw [if_neg fun hh => h (hh.1.trans hh.2.symm), mul_zero]

/-! ### The average -/

section Average

variable {A : Type*} [NormedRing A] [NormedAlgebra ℂ A] [CompleteSpace A]

/-- Half step, step, half step of the bosons. -/
theorem split_close (X Y : A) :
    (fun t : ℝ => NormedSpace.exp ((-t / 2 : ℂ) • X) * NormedSpace.exp ((-t : ℂ) • Y) *
        NormedSpace.exp ((-t / 2 : ℂ) • X) - NormedSpace.exp ((-t : ℂ) • (X + Y)))
      =O[𝓝[≥] 0] fun t : ℝ => t ^ 2 := by
  have hX : ManyBody.First (fun t : ℝ => NormedSpace.exp ((t / 2 : ℂ) • (-X))) 1 ((1 / 2 : ℂ) • (-X)) :=
    ManyBody.First.of_expands (exp_half_expands (-X))
  have hY : ManyBody.First (fun t : ℝ => NormedSpace.exp ((t : ℂ) • (-Y))) 1 (-Y) :=
    ManyBody.First.of_expands (exp_expands (-Y))
  have hE : ManyBody.First (fun t : ℝ => NormedSpace.exp ((t : ℂ) • (-(X + Y)))) 1 (-(X + Y)) :=
    ManyBody.First.of_expands (exp_expands (-(X + Y)))
  have hP := (hX.mul hY).mul hX
  unfold ManyBody.First at hP hE
  refine (hP.sub hE).congr_left fun t => ?_
  have h1 : (1 * 1 * ((1 / 2 : ℂ) • (-X)) + (1 * -Y + ((1 / 2 : ℂ) • (-X)) * 1) * 1 : A) = -(X + Y) := by
    simp only [one_mul, mul_one]
    module
  have h2 : ∀ Z : A, (-t / 2 : ℂ) • Z = (t / 2 : ℂ) • (-Z) := fun Z => by
    rw [smul_neg, ← neg_smul]; ring_nf
  have h3 : ∀ Z : A, (-t : ℂ) • Z = (t : ℂ) • (-Z) := fun Z => by
    rw [smul_neg, ← neg_smul]
  rw [h1]
  simp only [h2, h3, mul_one]
  abel

theorem exp_bounded (X : A) :
    (fun t : ℝ => NormedSpace.exp ((-t : ℂ) • X)) =O[𝓝[≥] 0] fun _ : ℝ => (1 : ℝ) := by
  have h : ManyBody.First (fun t : ℝ => NormedSpace.exp ((t : ℂ) • (-X))) 1 (-X) :=
    ManyBody.First.of_expands (exp_expands (-X))
  refine h.bounded.congr_left fun t => ?_
  rw [smul_neg, neg_smul]

end Average

/-- Products of quantities that agree up to second order. -/
theorem product_close {E B e' b' : ℝ → ℂ} (h1 : (fun t => E t - e' t) =O[𝓝[≥] 0] fun t : ℝ => t ^ 2)
    (h2 : (fun t => B t - b' t) =O[𝓝[≥] 0] fun t : ℝ => t ^ 2)
    (h3 : e' =O[𝓝[≥] 0] fun _ : ℝ => (1 : ℝ)) (h4 : b' =O[𝓝[≥] 0] fun _ : ℝ => (1 : ℝ)) :
    (fun t => E t * B t - e' t * b' t) =O[𝓝[≥] 0] fun t : ℝ => t ^ 2 := by
  have h5 : B =O[𝓝[≥] 0] fun _ : ℝ => (1 : ℝ) := by
    have hs : (fun t : ℝ => t ^ 2) =O[𝓝[≥] (0 : ℝ)] fun _ => (1 : ℝ) := by
      refine Tendsto.isBigO_one ℝ (c := (0 : ℝ) ^ 2) ?_
      exact ((continuous_pow 2).tendsto 0).mono_left nhdsWithin_le_nhds
    exact ((h2.trans hs).add h4).congr_left fun t => by ring
  have h6 := h1.mul h5
  have h7 := h3.mul h2
  simp only [mul_one, one_mul] at h6 h7
  exact (h6.add h7).congr_left fun t => by ring

section Elements

variable {ia ib c : Type*} [Fintype ia] [DecidableEq ia] [Fintype ib] [DecidableEq ib] [Fintype c]
  {n : m → ℕ}

/-- The overlap of the bosons as a linear function of the operator. -/
noncomputable def bosonHom (psi : b → ℂ) (chi : Matrix b Unit ℂ) : Matrix b b ℂ →ₗ[ℂ] ℂ where
  toFun Y := bosonOvlp psi (Y * chi)
  map_add' X Y := by
    simp only [bosonOvlp, Matrix.add_mul, Matrix.add_apply, add_mul, Finset.sum_add_distrib]
  map_smul' k X := by
    simp only [bosonOvlp, Matrix.smul_mul, Matrix.smul_apply, smul_eq_mul, RingHom.id_apply, Finset.mul_sum,
      mul_assoc]

/-- The element of the electrons as a linear function of the operator. -/
def electronHom (Da : Matrix p ia ℂ) (Db : Matrix p ib ℂ) (a : Matrix p ia ℂ) (d : Matrix p ib ℂ) :
    Matrix (ia ⊕ ib → p) (ia ⊕ ib → p) ℂ →ₗ[ℂ] ℂ where
  toFun X := ManyBody.element Da Db X a d
  map_add' X Y := by
    simp only [ManyBody.element, mul_add, add_mul, Matrix.add_apply, Finset.sum_add_distrib]
  map_smul' k X := by
    simp only [ManyBody.element, Matrix.smul_apply, smul_eq_mul, RingHom.id_apply, Finset.mul_sum]
    refine Finset.sum_congr rfl fun f _ => Finset.sum_congr rfl fun f' _ => ?_
    ring

theorem hom_bounded {A : Type*} [NormedRing A] [NormedAlgebra ℂ A] [FiniteDimensional ℂ A]
    (F : A →ₗ[ℂ] ℂ) {f : ℝ → A} (h : f =O[𝓝[≥] 0] fun _ : ℝ => (1 : ℝ)) :
    (fun t => F (f t)) =O[𝓝[≥] 0] fun _ : ℝ => (1 : ℝ) :=
  ((LinearMap.toContinuousLinearMap F).isBigO_comp _ _).trans h

theorem element_bounded (Da : Matrix p ia ℂ) (Db : Matrix p ib ℂ) (a : Matrix p ia ℂ) (d : Matrix p ib ℂ)
    (H : Matrix (ia ⊕ ib → p) (ia ⊕ ib → p) ℂ) :
    (fun t : ℝ => ManyBody.element Da Db (NormedSpace.exp ((-t : ℂ) • H)) a d)
      =O[𝓝[≥] 0] fun _ : ℝ => (1 : ℝ) := by
  let _ : NormedRing (Matrix (ia ⊕ ib → p) (ia ⊕ ib → p) ℂ) := Matrix.linftyOpNormedRing
  let _ : NormedAlgebra ℂ (Matrix (ia ⊕ ib → p) (ia ⊕ ib → p) ℂ) := Matrix.linftyOpNormedAlgebra
  exact hom_bounded (electronHom Da Db a d) (exp_bounded H)

theorem boson_bounded (psi : b → ℂ) (chi : Matrix b Unit ℂ) (H : Matrix b b ℂ) :
    (fun t : ℝ => bosonOvlp psi (NormedSpace.exp ((-t : ℂ) • H) * chi))
      =O[𝓝[≥] 0] fun _ : ℝ => (1 : ℝ) := by
  let _ : NormedRing (Matrix b b ℂ) := Matrix.linftyOpNormedRing
  let _ : NormedAlgebra ℂ (Matrix b b ℂ) := Matrix.linftyOpNormedAlgebra
  exact hom_bounded (bosonHom psi chi) (exp_bounded H)

theorem boson_split (psi : b → ℂ) (chi : Matrix b Unit ℂ) (X Y : Matrix b b ℂ) :
    (fun t : ℝ => bosonOvlp psi (NormedSpace.exp ((-t / 2 : ℂ) • X) * (NormedSpace.exp ((-t : ℂ) • Y) *
        (NormedSpace.exp ((-t / 2 : ℂ) • X) * chi))) -
      bosonOvlp psi (NormedSpace.exp ((-t : ℂ) • (X + Y)) * chi)) =O[𝓝[≥] 0] fun t : ℝ => t ^ 2 := by
  let _ : NormedRing (Matrix b b ℂ) := Matrix.linftyOpNormedRing
  let _ : NormedAlgebra ℂ (Matrix b b ℂ) := Matrix.linftyOpNormedAlgebra
  refine (ManyBody.functional_isBigO (bosonHom psi chi) (split_close X Y)).congr_left fun t => ?_
  rw [map_sub]
  refine congrArg₂ (· - ·) ?_ rfl
  show bosonOvlp psi (_ * _ * _ * chi) = _
  simp only [Matrix.mul_assoc]
  rfl

/-- Specification: the setup with the time step `t`. -/
def withStep (S : PSetup p ia ib c n) (t : ℝ) : PSetup p ia ib c n :=
  { S with el := { S.el with dt := t } }

/-- Specification: the matrix element for all electrons of a walker and its bosons, of an operator given
for every set of electrons (with one spin component both spins have the same orbitals). -/
noncomputable def matrixElement (S : PSetup p ia ib c n) (Da : Matrix p ia ℂ) (Db : Matrix p ib ℂ)
    (psi : Fock n → ℂ) (w : JWalker p ia ib (Fock n))
    (X : Matrix ((ia ⊕ ib → p) × Fock n) ((ia ⊕ ib → p) × Fock n) ℂ)
    (Y : Matrix ((ia ⊕ ia → p) × Fock n) ((ia ⊕ ia → p) × Fock n) ℂ) : ℂ :=
  if S.el.two then JointStep.element Da Db psi X w.el.phia w.el.phib w.chi
  else JointStep.element Da Da psi Y w.el.phia w.el.phia w.chi

theorem element_meanField (Da : Matrix p ia ℂ) (Db : Matrix p ib ℂ) (psi : b → ℂ) (a : Matrix p ia ℂ)
    (d : Matrix p ib ℂ) (chi : Matrix b Unit ℂ) (h : ia ⊕ ib → Matrix p p ℂ) (Hb : Matrix b b ℂ)
    (L : g → Matrix p p ℂ) (lbar : g → ℂ) (G : m → Matrix p p ℂ) (q : m → Matrix b b ℂ) (Q z : m → ℂ)
    (t : ℂ) :
    JointStep.element Da Db psi (NormedSpace.exp (t • meanField h Hb L lbar G q Q z)) a d chi =
      ManyBody.element Da Db (NormedSpace.exp (t • ManyBody.hamiltonian (fun j => h j + ∑ X, Q X • G X)
        L lbar)) a d * bosonOvlp psi (NormedSpace.exp (t • (Hb + ∑ X, z X • q X)) * chi) := by
  rw [meanField, smul_add, ← Matrix.smul_kronecker, ← Matrix.kronecker_smul, Kron.exp_kron, element_kron]

/-- **C112.** One step with given mean fields, averaged over the fields of the walker: the weighted
overlaps of the moved walker with any determinant and any boson state are those of `exp(-t H)` up to
second order, with the mean-field Hamiltonian. -/
theorem product_mean (S : PSetup p ia ib c n) (hn : 3 ≤ S.el.order) (Q z : m → ℂ)
    (Da : Matrix p ia ℂ) (Db : Matrix p ib ℂ) (psi : Fock n → ℂ) (w : JWalker p ia ib (Fock n))
    (k : Matrix p ia ℂ × Matrix p ib ℂ) :
    (fun t : ℝ => (∫ x : c → ℝ, (normalDensity x : ℂ) *
      (let T := withField (withStep S t) Q
       let xb := xbar T k
       Complex.exp (cfb x xb + cmf t x xb S.el.lbar) *
        (overlap Da (move T (fieldOp T x xb) (T.expH 0) w.el.phia)
          (beta S.el.two (Db, move T (fieldOp T x xb) (T.expH 1) w.el.phib)) *
        bosonOvlp psi (moveP (withStep S t) z w.chi)))) -
      matrixElement S Da Db psi w
        (NormedSpace.exp ((-t : ℂ) • meanField (Sum.elim (fun _ => S.h 0) fun _ => S.h 1) S.Hb S.el.L S.el.lbar
          S.geb position Q z))
        (NormedSpace.exp ((-t : ℂ) • meanField (fun _ => S.h 0) S.Hb S.el.L S.el.lbar S.geb position Q z)))
      =O[𝓝[≥] 0] fun t : ℝ => t ^ 2 := by
  have h1 := ManyBody.hamiltonian_mean S.el hn (fun s => S.h s + ∑ X, Q X • S.geb X) Da Db w.el
    fun t => xbar (withField (withStep S t) Q) k
  have h2 := boson_split psi w.chi S.Hb (adagPlusA z)
  have h4 := boson_bounded psi w.chi (S.Hb + adagPlusA z)
  have h3 : ManyBody.exact S.el (fun s => S.h s + ∑ X, Q X • S.geb X) Da Db w.el
      =O[𝓝[≥] 0] fun _ : ℝ => (1 : ℝ) := by
    unfold ManyBody.exact
    cases S.el.two with
    | true => exact element_bounded _ _ _ _ _
    | false => exact element_bounded _ _ _ _ _
  refine (product_close h1 h2 h3 h4).congr_left fun t => ?_
  refine congrArg₂ (· - ·) ?_ ?_
  · rw [← integral_mul_const]
    refine integral_congr_ae (Eventually.of_forall fun x => ?_)
    beta_reduce
    rw [mul_assoc, mul_assoc]
    rfl
  · unfold ManyBody.exact matrixElement
    cases h2 : S.el.two with
    | true =>
      simp only [if_true]
      rw [element_meanField, adagPlusA_eq]
      have e : (fun j : ia ⊕ ib => (Sum.elim (fun _ => S.h 0) (fun _ => S.h 1) j : Matrix p p ℂ) +
          ∑ X, Q X • S.geb X) = Sum.elim (fun _ => S.h 0 + ∑ X, Q X • S.geb X)
            fun _ => S.h 1 + ∑ X, Q X • S.geb X := by
        funext j
        cases j <;> rfl
      rw [e]
    | false =>
      simp only [Bool.false_eq_true, if_false]
      rw [element_meanField, adagPlusA_eq]

/-- Specification: the overlap after the step of one walker with given mean fields, times the two factors
of the step, averaged over the fields. -/
noncomputable def averageStep (S : PSetup p ia ib c n) (Q z : m → ℂ) (eshift : ℂ)
    (w : JWalker p ia ib (Fock n)) (k : Matrix p ia ℂ × Matrix p ib ℂ) (t : ℝ) : ℂ :=
  ∫ x : c → ℝ, (normalDensity x : ℂ) *
    (let xb := xbar (withField (withStep S t) Q) k
     match pone (withStep S t) Q z eshift x k w with
      | .ok w' => Complex.exp (cfb x xb + cmf t x xb S.el.lbar) *
          (overlap S.el.Ta w'.el.phia (beta S.el.two (S.el.Tb, w'.el.phib)) * bosonOvlp S.psi w'.chi)
      | .error _ => 0)

/-- **C112.** The same for the step of the code and the overlaps it stores. -/
theorem product_step (S : PSetup p ia ib c n) (hn : 3 ≤ S.el.order) (Q z : m → ℂ) (eshift : ℂ)
    (w : JWalker p ia ib (Fock n)) (k : Matrix p ia ℂ × Matrix p ib ℂ)
    (hsch : S.el.scheme = some "hybrid" ∨ S.el.scheme = some "local") :
    (fun t : ℝ => averageStep S Q z eshift w k t -
      matrixElement S S.el.Ta S.el.Tb S.psi w
        (NormedSpace.exp ((-t : ℂ) • meanField (Sum.elim (fun _ => S.h 0) fun _ => S.h 1) S.Hb S.el.L S.el.lbar
          S.geb position Q z))
        (NormedSpace.exp ((-t : ℂ) • meanField (fun _ => S.h 0) S.Hb S.el.L S.el.lbar S.geb position Q z)))
      =O[𝓝[≥] 0] fun t : ℝ => t ^ 2 := by
  refine (product_mean S hn Q z S.el.Ta S.el.Tb S.psi w k).congr_left fun t => ?_
  refine congrArg (· - _) ?_
  unfold averageStep
  refine integral_congr_ae (Eventually.of_forall fun x => ?_)
  refine congrArg (_ * ·) ?_
  simp only [pone]
  set T := withField (withStep S t) Q with hT
  have hb : beta S.el.two (S.el.Tb, if T.two = true then
        move T (fieldOp T x (xbar T k)) (T.expH 1) w.el.phib else w.el.phib) =
      beta S.el.two (S.el.Tb, move T (fieldOp T x (xbar T k)) (T.expH 1) w.el.phib) := by
    cases h2 : S.el.two with
    | true => rw [show T.two = true from h2]; rfl
    | false => rfl
  have hsch' : T.scheme = some "hybrid" ∨ T.scheme = some "local" := hsch
  generalize (if T.two = true then
        move T (fieldOp T x (xbar T k)) (T.expH 1) w.el.phib else w.el.phib) = B at hb ⊢
  split_ifs with h0
  · simp only
    have h0' : overlap S.el.Ta (move T (fieldOp T x (xbar T k)) (T.expH 0) w.el.phia)
        (beta S.el.two (S.el.Tb, move T (fieldOp T x (xbar T k)) (T.expH 1) w.el.phib)) *
        bosonOvlp S.psi (moveP (withStep S t) z w.chi) = 0 := by
      rw [← hb]
      exact h0
    exact (mul_eq_zero.2 (Or.inr h0'))
  · have hu : ∀ Y : UpdateInput, ∃ r, updateWeight T.scheme T.dt
        eshift w.el.weight w.el.ehybrid Y = .ok r := by
      intro Y
      unfold updateWeight
      rcases hsch' with h1 | h1
      · rw [if_pos h1]; exact ⟨_, rfl⟩
      · rw [if_neg (by rw [h1]; decide), if_pos h1]; exact ⟨_, rfl⟩
    generalize (⟨_, _, _, _, _⟩ : UpdateInput) = Y
    obtain ⟨r, hr⟩ := hu Y
    rw [hr]
    simp only
    rw [hb]

/-! ### Comparison with the bilinear Hamiltonian -/

theorem sum_site_add (h : e → Matrix p p ℂ) (G : m → Matrix p p ℂ) (Q : m → ℂ) :
    ∑ j, site j (h j + ∑ X, Q X • G X) = ∑ j, site j (h j) + ∑ X, Q X • ∑ j : e, site j (G X) := by
  have h1 : ∀ j, site j (h j + ∑ X, Q X • G X) = site j (h j) + ∑ X, Q X • site j (G X) := by
    intro j
    have h2 := map_add (siteHom j) (h j) (∑ X, Q X • G X)
    have h3 := map_sum (siteHom j) (fun X => Q X • G X) Finset.univ
    rw [h3] at h2
    refine h2.trans (congrArg₂ (· + ·) rfl (Finset.sum_congr rfl fun X _ => ?_))
    ext f f'
    show site j (Q X • G X) f f' = _
    simp only [site, Matrix.of_apply, Matrix.smul_apply, smul_eq_mul]
    split_ifs <;> simp
  rw [Finset.sum_congr rfl fun j _ => h1 j, Finset.sum_add_distrib, Finset.sum_comm]
  simp only [Finset.smul_sum]

/-- The bilinear Hamiltonian is the mean-field one, the coupling of the deviations from the mean values and
a constant. -/
theorem full_eq (h : e → Matrix p p ℂ) (Hb : Matrix b b ℂ) (L : g → Matrix p p ℂ) (lbar : g → ℂ)
    (G : m → Matrix p p ℂ) (q : m → Matrix b b ℂ) (Q z : m → ℂ) (shift : ℂ) :
    full h Hb L lbar G q shift =
      meanField h Hb L lbar G q Q z + coupling e G q z Q + (shift - ∑ X, z X * Q X) • 1 := by
  have h1 : ManyBody.hamiltonian (fun j => h j + ∑ X, Q X • G X) L lbar =
      ManyBody.hamiltonian h L lbar + ∑ X, Q X • ∑ j : e, site j (G X) := by
    unfold ManyBody.hamiltonian
    rw [sum_site_add]
    abel
  have h2 : ∀ X, shifted e (G X) (z X) ⊗ₖ (q X - Q X • 1) =
      (∑ j : e, site j (G X)) ⊗ₖ q X - Q X • ((∑ j : e, site j (G X)) ⊗ₖ (1 : Matrix b b ℂ)) -
        z X • ((1 : Matrix (e → p) (e → p) ℂ) ⊗ₖ q X) + (z X * Q X) • 1 := by
    intro X
    ext F F'
    simp only [shifted, Matrix.kroneckerMap_apply, Matrix.sub_apply, Matrix.add_apply, Matrix.smul_apply,
      smul_eq_mul]
    rw [← Matrix.one_kronecker_one (α := ℂ) (m := e → p) (n := b), Matrix.kroneckerMap_apply]
    ring
  have h3 : (∑ X, Q X • ∑ j : e, site j (G X)) ⊗ₖ (1 : Matrix b b ℂ) =
      ∑ X, Q X • ((∑ j : e, site j (G X)) ⊗ₖ (1 : Matrix b b ℂ)) := by
    have := map_sum (Kron.leftHom (e → p) b) (fun X => Q X • ∑ j : e, site j (G X)) Finset.univ
    exact this.trans (Finset.sum_congr rfl fun X _ => Matrix.smul_kronecker _ _ _)
  have h4 : (1 : Matrix (e → p) (e → p) ℂ) ⊗ₖ (∑ X, z X • q X) =
      ∑ X, z X • ((1 : Matrix (e → p) (e → p) ℂ) ⊗ₖ q X) := by
    have := map_sum (Kron.rightHom (e → p) b) (fun X => z X • q X) Finset.univ
    exact this.trans (Finset.sum_congr rfl fun X _ => Matrix.kronecker_smul _ _ _)
  rw [full, meanField, coupling, h1, Matrix.add_kronecker, Matrix.kronecker_add, h3, h4,
    Finset.sum_congr rfl fun X _ => h2 X, Finset.sum_add_distrib, Finset.sum_sub_distrib,
    Finset.sum_sub_distrib, sub_smul, Finset.sum_smul]
  abel

theorem element_full_iff (Da : Matrix p ia ℂ) (Db : Matrix p ib ℂ) (psi : b → ℂ) (a : Matrix p ia ℂ)
    (d : Matrix p ib ℂ) (chi : Matrix b Unit ℂ) (h : ia ⊕ ib → Matrix p p ℂ) (Hb : Matrix b b ℂ)
    (L : g → Matrix p p ℂ) (lbar : g → ℂ) (G : m → Matrix p p ℂ) (q : m → Matrix b b ℂ) (Q z : m → ℂ)
    (shift : ℂ) :
    (fun t : ℝ => JointStep.element Da Db psi (NormedSpace.exp ((-t : ℂ) •
        meanField h Hb L lbar G q Q z)) a d chi -
      JointStep.element Da Db psi (NormedSpace.exp ((-t : ℂ) • full h Hb L lbar G q shift)) a d chi)
      =O[𝓝[≥] 0] (fun t : ℝ => t ^ 2) ↔
    JointStep.element Da Db psi (coupling (ia ⊕ ib) G q z Q) a d chi =
      (∑ X, z X * Q X - shift) * JointStep.element Da Db psi 1 a d chi := by
  let _ : NormedRing (Matrix ((ia ⊕ ib → p) × b) ((ia ⊕ ib → p) × b) ℂ) := Matrix.linftyOpNormedRing
  let _ : NormedAlgebra ℂ (Matrix ((ia ⊕ ib → p) × b) ((ia ⊕ ib → p) × b) ℂ) :=
    Matrix.linftyOpNormedAlgebra
  refine (exp_agree_iff (elementHom Da Db psi a d chi) _ _).trans ?_
  rw [full_eq h Hb L lbar G q Q z shift, map_add, map_add, map_smul, smul_eq_mul]
  show JointStep.element Da Db psi _ a d chi = JointStep.element Da Db psi _ a d chi +
    JointStep.element Da Db psi (coupling (ia ⊕ ib) G q z Q) a d chi +
      _ * JointStep.element Da Db psi 1 a d chi ↔ _
  constructor
  · intro h
    linear_combination -h
  · intro h
    linear_combination -h

/-- Two averages: replacing one side by something that agrees up to second order. -/
theorem agree_congr {X Y Z : ℝ → ℂ} (h : (fun t => X t - Y t) =O[𝓝[≥] 0] (fun t : ℝ => t ^ 2)) :
    (fun t => X t - Z t) =O[𝓝[≥] 0] (fun t : ℝ => t ^ 2) ↔
      (fun t => Y t - Z t) =O[𝓝[≥] 0] (fun t : ℝ => t ^ 2) := by
  constructor
  · intro hz
    exact (hz.sub h).congr_left fun t => by ring
  · intro hz
    exact (h.add hz).congr_left fun t => by ring

/-- **C112.** For an arbitrary determinant and boson state, the average is that of the bilinear Hamiltonian
(up to a constant `shift`) exactly when the coupling of the deviations from the mean fields has no matrix
element beyond a constant. -/
theorem product_element_iff (S : PSetup p ia ib c n) (hn : 3 ≤ S.el.order) (Q z : m → ℂ)
    (Da : Matrix p ia ℂ) (Db : Matrix p ib ℂ) (psi : Fock n → ℂ) (w : JWalker p ia ib (Fock n))
    (k : Matrix p ia ℂ × Matrix p ib ℂ) (shift : ℂ) :
    (fun t : ℝ => (∫ x : c → ℝ, (normalDensity x : ℂ) *
      (let T := withField (withStep S t) Q
       let xb := xbar T k
       Complex.exp (cfb x xb + cmf t x xb S.el.lbar) *
        (overlap Da (move T (fieldOp T x xb) (T.expH 0) w.el.phia)
          (beta S.el.two (Db, move T (fieldOp T x xb) (T.expH 1) w.el.phib)) *
        bosonOvlp psi (moveP (withStep S t) z w.chi)))) -
      matrixElement S Da Db psi w
        (NormedSpace.exp ((-t : ℂ) • full (Sum.elim (fun _ => S.h 0) fun _ => S.h 1) S.Hb S.el.L S.el.lbar
          S.geb position shift))
        (NormedSpace.exp ((-t : ℂ) • full (fun _ => S.h 0) S.Hb S.el.L S.el.lbar S.geb position shift)))
      =O[𝓝[≥] 0] (fun t : ℝ => t ^ 2) ↔
    matrixElement S Da Db psi w (coupling (ia ⊕ ib) S.geb position z Q) (coupling (ia ⊕ ia) S.geb position z Q) =
      (∑ X, z X * Q X - shift) * matrixElement S Da Db psi w 1 1 := by
  refine (agree_congr (product_mean S hn Q z Da Db psi w k)).trans ?_
  unfold matrixElement
  cases S.el.two with
  | true => exact element_full_iff _ _ _ _ _ _ _ _ _ _ _ _ _ _ _
  | false => exact element_full_iff _ _ _ _ _ _ _ _ _ _ _ _ _ _ _

/-- Specification: the mixed estimate of a one-electron operator for a walker. -/
noncomputable def meanE (S : PSetup p ia ib c n) (w : JWalker p ia ib (Fock n)) (M : Matrix p p ℂ) : ℂ :=
  if S.el.two then mixed S.el.Ta S.el.Tb w.el.phia w.el.phib M
  else mixed S.el.Ta S.el.Ta w.el.phia w.el.phia M

theorem halves_ne (S : Setup p ia ib c) (a : Matrix p ia ℂ) (d : Matrix p ib ℂ)
    (k : Matrix p ia ℂ × Matrix p ib ℂ) (hk : halves S a d = some k) :
    (ovlpMatrix S.Ta a).det ≠ 0 ∧ (S.two = true → (ovlpMatrix S.Tb d).det ≠ 0) := by
  unfold halves at hk
  cases ha : ghalf S.Ta a with
  | none => rw [ha] at hk; simp at hk
  | some ka =>
    refine ⟨ghalf_det ha, fun h2 => ?_⟩
    simp only [ha, h2, if_true, Option.map_eq_some_iff] at hk
    obtain ⟨kb, hb, -⟩ := hk
    exact ghalf_det hb

theorem element_unit (Da : Matrix p ia ℂ) (Db : Matrix p ib ℂ) (psi : b → ℂ) (a : Matrix p ia ℂ)
    (d : Matrix p ib ℂ) (chi : Matrix b Unit ℂ) : JointStep.element Da Db psi 1 a d chi =
      ManyBody.element Da Db 1 a d * bosonOvlp psi chi := by
  rw [← Matrix.one_kronecker_one, element_kron, Matrix.one_mul]

/-- **C112.** For the overlap with the trial: the average is that of the bilinear Hamiltonian up to a
constant exactly when the deviations of the mixed estimates of the walker from the mean fields are
orthogonal up to that constant. -/
theorem product_iff (S : PSetup p ia ib c n) (hn : 3 ≤ S.el.order) (Q z : m → ℂ) (eshift : ℂ)
    (w : JWalker p ia ib (Fock n)) (k : Matrix p ia ℂ × Matrix p ib ℂ)
    (hk : halves S.el w.el.phia w.el.phib = some k) (hw : bosonOvlp S.psi w.chi ≠ 0)
    (hsch : S.el.scheme = some "hybrid" ∨ S.el.scheme = some "local") (shift : ℂ) :
    (fun t : ℝ => averageStep S Q z eshift w k t -
      matrixElement S S.el.Ta S.el.Tb S.psi w
        (NormedSpace.exp ((-t : ℂ) • full (Sum.elim (fun _ => S.h 0) fun _ => S.h 1) S.Hb S.el.L S.el.lbar
          S.geb position shift))
        (NormedSpace.exp ((-t : ℂ) • full (fun _ => S.h 0) S.Hb S.el.L S.el.lbar S.geb position shift)))
      =O[𝓝[≥] 0] (fun t : ℝ => t ^ 2) ↔
    ∑ X, (meanE S w (S.geb X) - z X) * (mixedB S.psi w.chi (position X) - Q X) =
      ∑ X, z X * Q X - shift := by
  refine (agree_congr (product_step S hn Q z eshift w k hsch)).trans ?_
  obtain ⟨n1, n2⟩ := halves_ne S.el _ _ k hk
  unfold matrixElement meanE
  cases h2 : S.el.two with
  | true =>
    simp only [if_true]
    have hd : ManyBody.element S.el.Ta S.el.Tb 1 w.el.phia w.el.phib ≠ 0 := by
      rw [element_one]; exact mul_ne_zero n1 (n2 h2)
    refine (element_full_iff _ _ _ _ _ _ _ _ _ _ _ _ _ _ _).trans ?_
    rw [element_coupling _ _ _ _ _ _ _ _ _ _ hd hw, element_unit]
    exact mul_left_inj' (mul_ne_zero hd hw)
  | false =>
    simp only [Bool.false_eq_true, if_false]
    have hd : ManyBody.element S.el.Ta S.el.Ta 1 w.el.phia w.el.phia ≠ 0 := by
      rw [element_one]; exact mul_ne_zero n1 n1
    refine (element_full_iff _ _ _ _ _ _ _ _ _ _ _ _ _ _ _).trans ?_
    rw [element_coupling _ _ _ _ _ _ _ _ _ _ hd hw, element_unit]
    exact mul_left_inj' (mul_ne_zero hd hw)

/-! ### The mean fields of a population -/

/-- Specification: `⟨χ| Y |χ⟩`, without normalisation. -/
noncomputable def quadratic (chi : Matrix b Unit ℂ) (Y : Matrix b b ℂ) : ℂ :=
  ∑ F, ∑ G, starRingEnd ℂ (chi F ()) * Y F G * chi G ()

theorem qalpha_one (chi : Matrix (Fock n) Unit ℂ) (X : m) :
    ∑ i : Fin (n X), ∑ j : Fin (n X), Energy.displacement i j * modeDM chi X i j =
      quadratic chi (position X) := by
  unfold quadratic position modeDM
  rw [Fintype.sum_sigma, Finset.sum_eq_single X]
  · rw [Finset.sum_comm]
    refine Finset.sum_congr rfl fun j _ => ?_
    rw [Fintype.sum_sigma, Finset.sum_eq_single X]
    · refine Finset.sum_congr rfl fun i _ => ?_
      simp only [Matrix.of_apply, and_self, if_true, displacement_eq]
      by_cases h1 : (i : ℕ) = j + 1
      · have h2 : ¬ (j : ℕ) = i + 1 := by omega
        rw [if_pos h1, if_neg h2, if_pos h1]
        ring
      · by_cases h2 : (j : ℕ) = i + 1
        · rw [if_neg h1, if_pos h2, if_pos h2]
          ring
        · rw [if_neg h1, if_neg h2, if_neg h2, if_neg h1]
          ring
    · intro Y _ hY
      refine Finset.sum_eq_zero fun i _ => ?_
      simp [hY]
    · simp
  · intro Y _ hY
    refine Finset.sum_eq_zero fun i _ => Finset.sum_eq_zero fun F _ => ?_
    simp [hY]
  · simp

/-- **C112.** The field of the bosons is the weighted average of `⟨χ| b† + b |χ⟩` over the walkers of the
process. -/
theorem qalpha_mean (ws : List (ℝ × Matrix (Fock n) Unit ℂ)) (X : m) :
    qalpha ws X = (ws.map fun w => (w.1 : ℂ) * quadratic w.2 (position X)).sum /
      ((ws.map fun w => w.1).sum : ℝ) := by
  unfold qalpha
  generalize (((ws.map fun w => w.1).sum : ℝ) : ℂ) = W
  simp only [← mul_div_assoc, ← Finset.sum_div]
  congr 1
  induction ws with
  | nil => simp
  | cons w ws ih =>
    simp only [List.map_cons, List.sum_cons, mul_add, Finset.sum_add_distrib]
    rw [ih, ← qalpha_one]
    congr 1
    simp only [Finset.mul_sum]
    refine Finset.sum_congr rfl fun i _ => Finset.sum_congr rfl fun j _ => ?_
    ring

theorem gsum_contract (S : PSetup p ia ib c n) (w : JWalker p ia ib (Fock n))
    (k : Matrix p ia ℂ × Matrix p ib ℂ) (hk : halves S.el w.el.phia w.el.phib = some k) (M : Matrix p p ℂ) :
    ∑ a, ∑ b, gsum S.el k a b * M a b = meanE S w M := by
  have hv : ∀ {i : Type _} [Fintype i] (T h : Matrix p i ℂ),
      ∑ a, ∑ b, fullG T h a b * M a b = vbias (halfRotate T M) h := by
    intro i _ T h
    unfold fullG vbias halfRotate
    rw [Finset.sum_comm]
    refine Finset.sum_congr rfl fun q _ => ?_
    simp only [Matrix.of_apply, Finset.sum_mul, Finset.mul_sum]
    rw [Finset.sum_comm]
    refine Finset.sum_congr rfl fun j _ => Finset.sum_congr rfl fun a _ => ?_
    ring
  have hv' : ∀ {i : Type _} [Fintype i] (T h : Matrix p i ℂ),
      ∑ a, ∑ b, fullG T h a b * M a b = vbias (halfRotate T M) h := by
    intro i _ T h
    unfold fullG vbias halfRotate
    rw [Finset.sum_comm]
    refine Finset.sum_congr rfl fun q _ => ?_
    simp only [Matrix.of_apply, Finset.sum_mul, Finset.mul_sum]
    rw [Finset.sum_comm]
    refine Finset.sum_congr rfl fun j _ => Finset.sum_congr rfl fun a _ => ?_
    ring
  unfold halves at hk
  cases ha : ghalf S.el.Ta w.el.phia with
  | none => rw [ha] at hk; simp at hk
  | some ka =>
    simp only [ha] at hk
    cases ht : S.el.two with
    | false =>
      simp only [ht, Bool.false_eq_true, if_false, Option.some.injEq] at hk
      subst hk
      simp only [meanE, gsum, ht, Bool.false_eq_true, if_false, Matrix.smul_apply, smul_eq_mul, mul_assoc,
        ← Finset.mul_sum]
      rw [hv, ← mixed_vbias _ _ _ _ _ _ ha ha]
      ring
    | true =>
      simp only [ht, if_true, Option.map_eq_some_iff] at hk
      obtain ⟨kb, hb, rfl⟩ := hk
      simp only [meanE, gsum, ht, if_true, Matrix.add_apply, add_mul, Finset.sum_add_distrib]
      rw [hv, hv', ← mixed_vbias _ _ _ _ _ _ ha hb]

/-- **C112.** The field of the electrons is the weighted average of the mixed estimates of the coupling
matrices over the walkers of the process. -/
theorem zlambda_mean (S : PSetup p ia ib c n)
    (ws : List (JWalker p ia ib (Fock n) × (Matrix p ia ℂ × Matrix p ib ℂ)))
    (hw : ∀ w ∈ ws, halves S.el w.1.el.phia w.1.el.phib = some w.2) (X : m) :
    zlambda S (ws.map fun w => (w.1.el.weight, w.2)) X =
      (ws.map fun w => (w.1.el.weight : ℂ) * meanE S w.1 (S.geb X)).sum /
        ((ws.map fun w => w.1.el.weight).sum : ℝ) := by
  unfold zlambda rho
  simp only [List.map_map, Function.comp_def, Matrix.of_apply]
  generalize (((ws.map fun w => w.1.el.weight).sum : ℝ) : ℂ) = W
  have h1 : ∀ a b, (ws.map fun w => (w.1.el.weight : ℂ) * gsum S.el w.2 a b).sum / W * S.geb X a b =
      (ws.map fun w => (w.1.el.weight : ℂ) * gsum S.el w.2 a b).sum * S.geb X a b / W := by
    intro a b; ring
  simp only [h1, ← Finset.sum_div]
  congr 1
  induction ws with
  | nil => simp
  | cons w ws ih =>
    simp only [List.map_cons, List.sum_cons, add_mul, Finset.sum_add_distrib]
    rw [ih fun v hv => hw v (List.mem_cons_of_mem _ hv), ← gsum_contract S w.1 w.2 (hw w List.mem_cons_self)]
    · congr 1
      simp only [Finset.mul_sum]
      refine Finset.sum_congr rfl fun i _ => Finset.sum_congr rfl fun j _ => ?_
      ring
    · intro a b; ring

/-- **C112.** A population of one walker moves in its own mean fields. -/
theorem single_step (S : PSetup p ia ib c n) (eshift : ℂ) (x : c → ℝ) (w : JWalker p ia ib (Fock n))
    (k : Matrix p ia ℂ × Matrix p ib ℂ) (hk : halves S.el w.el.phia w.el.phib = some k)
    (hw : bosonOvlp S.psi w.chi ≠ 0) (h0 : w.el.weight ≠ 0) :
    pstep S eshift [(x, w)] = (pone S (fun X => quadratic w.chi (position X)) (fun X => meanE S w (S.geb X))
      eshift x k w).map fun w' => [w'] := by
  have hq : qalpha [(w.el.weight, w.chi)] = fun X => quadratic w.chi (position X) := by
    funext X
    rw [qalpha_mean]
    have : (w.el.weight : ℂ) ≠ 0 := by exact_mod_cast h0
    simp only [List.map_cons, List.map_nil, List.sum_cons, List.sum_nil, add_zero]
    field_simp
  have hz : zlambda S [(w.el.weight, k)] = fun X => meanE S w (S.geb X) := by
    funext X
    have := zlambda_mean S [(w, k)] (by simpa using hk) X
    simp only [List.map_cons, List.map_nil, List.sum_cons, List.sum_nil, add_zero] at this
    rw [this]
    have : (w.el.weight : ℂ) ≠ 0 := by exact_mod_cast h0
    field_simp
  have hm : [(x, w)].mapM (fun w => halves S.el w.2.el.phia w.2.el.phib) = some [k] := by
    simp [List.mapM_cons, hk]
  unfold pstep
  rw [hm]
  simp only [List.mem_singleton, exists_eq_left, if_neg hw, List.map_cons,
    List.map_nil, List.sum_cons, List.sum_nil, add_zero, if_neg h0, List.zip_cons_cons, List.zip_nil_right,
    hq, hz]
  rw [List.mapM_cons, List.mapM_nil]
  generalize pone S _ _ eshift x k w = r
  cases r <;> rfl

/-- **C112.** For a population of one walker the overlap with the trial is averaged as if the bilinear
Hamiltonian were lowered by one number only: the product of the two mean fields. -/
theorem single_iff (S : PSetup p ia ib c n) (hn : 3 ≤ S.el.order) (eshift : ℂ)
    (w : JWalker p ia ib (Fock n)) (k : Matrix p ia ℂ × Matrix p ib ℂ)
    (hk : halves S.el w.el.phia w.el.phib = some k) (hw : bosonOvlp S.psi w.chi ≠ 0)
    (hsch : S.el.scheme = some "hybrid" ∨ S.el.scheme = some "local") (shift : ℂ) :
    (fun t : ℝ => averageStep S (fun X => quadratic w.chi (position X)) (fun X => meanE S w (S.geb X)) eshift
        w k t -
      matrixElement S S.el.Ta S.el.Tb S.psi w
        (NormedSpace.exp ((-t : ℂ) • full (Sum.elim (fun _ => S.h 0) fun _ => S.h 1) S.Hb S.el.L S.el.lbar
          S.geb position shift))
        (NormedSpace.exp ((-t : ℂ) • full (fun _ => S.h 0) S.Hb S.el.L S.el.lbar S.geb position shift)))
      =O[𝓝[≥] 0] (fun t : ℝ => t ^ 2) ↔
    shift = ∑ X, meanE S w (S.geb X) * quadratic w.chi (position X) := by
  refine (product_iff S hn _ _ eshift w k hk hw hsch shift).trans ?_
  simp only [sub_self, zero_mul, Finset.sum_const_zero]
  rw [eq_comm, sub_eq_zero, eq_comm]

end Elements

/-! ### A concrete system -/

/-- A closed shell of two electrons in two orbitals, one mode with two states. -/
noncomputable def demo : PSetup (Fin 2) (Fin 1) (Fin 1) Unit (fun _ : Unit => 2) where
  el :=
    { two := false
      dt := 0
      order := 6
      bound := 1
      scheme := some "hybrid"
      expH := fun _ => 1
      L := fun _ => !![1, 0; 0, 2]
      lbar := fun _ => 0
      Ta := !![1; 0]
      Tb := !![1; 0] }
  h := fun _ => !![0, 1; 1, 0]
  Hb := 1
  geb := fun _ => !![0, 1; 1, 0]
  psi := fun F => if F.2 = 0 then 1 else 0

/-- A walker with normalised bosons. -/
noncomputable def demoWalker : JWalker (Fin 2) (Fin 1) (Fin 1) (Fock fun _ : Unit => 2) :=
  ⟨⟨!![1; 2], !![1; 2], 1, 0, 0⟩, Matrix.of fun F _ => if F.2 = 0 then 3 / 5 else 4 / 5⟩

theorem demo_ghalf : ghalf (!![1; 0] : Matrix (Fin 2) (Fin 1) ℂ) !![1; 2] = some !![1; 2] := by
  have h : ovlpMatrix (!![1; 0] : Matrix (Fin 2) (Fin 1) ℂ) !![1; 2] = 1 := by
    ext a b
    fin_cases a; fin_cases b
    simp [ovlpMatrix, conj, Matrix.mul_apply]
  unfold ghalf Green.inv
  rw [h, if_neg (by simp), inv_one]
  simp only [Option.map_some, Option.some.injEq]
  ext a b
  fin_cases b
  fin_cases a <;> simp

theorem demo_ghalf' : ghalf (!![0; 1] : Matrix (Fin 2) (Fin 1) ℂ) !![1; 2] = some !![1 / 2; 1] := by
  have h : ovlpMatrix (!![0; 1] : Matrix (Fin 2) (Fin 1) ℂ) !![1; 2] = !![2] := by
    ext a b
    fin_cases a; fin_cases b
    simp [ovlpMatrix, conj, Matrix.mul_apply]
  have hi : (!![2] : Matrix (Fin 1) (Fin 1) ℂ)⁻¹ = !![1 / 2] := by
    refine Matrix.inv_eq_right_inv ?_
    ext a b
    fin_cases a; fin_cases b
    simp [Matrix.mul_apply]
  unfold ghalf Green.inv
  rw [h, if_neg (by simp), hi]
  simp only [Option.map_some, Option.some.injEq]
  ext a b
  fin_cases b
  fin_cases a <;> simp

theorem demo_halves : halves demo.el demoWalker.el.phia demoWalker.el.phib = some (!![1; 2], 0) := by
  unfold halves
  rw [show ghalf demo.el.Ta demoWalker.el.phia = some !![1; 2] from demo_ghalf]
  rfl

theorem fock_sum (f : Fock (fun _ : Unit => 2) → ℂ) : ∑ F, f F = f ⟨(), 0⟩ + f ⟨(), 1⟩ := by
  rw [Fintype.sum_sigma]
  simp [Fin.sum_univ_two]

theorem demo_boson : bosonOvlp demo.psi demoWalker.chi = 3 / 5 := by
  rw [bosonOvlp, fock_sum]
  simp [demo, demoWalker]

/-- The hypotheses of the theorems hold for the system. -/
example : 3 ≤ demo.el.order ∧ demo.el.scheme = some "hybrid" ∧ demoWalker.el.weight ≠ 0 ∧
    (∃ k, halves demo.el demoWalker.el.phia demoWalker.el.phib = some k) ∧
    bosonOvlp demo.psi demoWalker.chi ≠ 0 := by
  refine ⟨by norm_num [demo], rfl, by norm_num [demoWalker], ⟨_, demo_halves⟩, ?_⟩
  rw [demo_boson]
  norm_num

theorem demo_mixed : mixed (!![1; 0] : Matrix (Fin 2) (Fin 1) ℂ) !![1; 0] !![1; 2] !![1; 2] !![0, 1; 1, 0] = 4 ∧
    mixed (!![0; 1] : Matrix (Fin 2) (Fin 1) ℂ) !![0; 1] !![1; 2] !![1; 2] !![0, 1; 1, 0] = 1 := by
  constructor
  · rw [← mixed_vbias _ _ _ _ _ _ demo_ghalf demo_ghalf]
    simp [vbias, halfRotate, conj]
    norm_num
  · rw [← mixed_vbias _ _ _ _ _ _ demo_ghalf' demo_ghalf']
    simp [vbias, halfRotate, conj]
    norm_num

theorem demo_quadratic : quadratic demoWalker.chi (position ()) = 24 / 25 := by
  rw [quadratic, fock_sum, fock_sum, fock_sum]
  have h : ∀ m : ℕ, (starRingEnd ℂ) (m : ℂ) = m := fun m => map_natCast _ m
  have h3 := h 3
  have h4 := h 4
  have h5 := h 5
  push_cast at h3 h4 h5
  simp [demoWalker, position, h3, h4, h5]
  norm_num

theorem demo_mixedB : mixedB demo.psi demoWalker.chi (position ()) = 4 / 3 := by
  rw [mixedB, demo_boson, bosonOvlp, fock_sum, Matrix.mul_apply, Matrix.mul_apply, fock_sum, fock_sum]
  simp [demoWalker, position, demo]
  norm_num

/-- **C112.** For a population of one walker there is in general no constant for which all overlaps of the
averaged step are those of the bilinear Hamiltonian. -/
theorem product_fails : ∃ (S : PSetup (Fin 2) (Fin 1) (Fin 1) Unit (fun _ : Unit => 2))
    (w : JWalker (Fin 2) (Fin 1) (Fin 1) (Fock fun _ : Unit => 2))
    (k : Matrix (Fin 2) (Fin 1) ℂ × Matrix (Fin 2) (Fin 1) ℂ),
    3 ≤ S.el.order ∧ S.el.scheme = some "hybrid" ∧ halves S.el w.el.phia w.el.phib = some k ∧
    w.el.weight ≠ 0 ∧ ∀ shift : ℂ, ¬ ∀ (Da Db : Matrix (Fin 2) (Fin 1) ℂ)
      (psi : Fock (fun _ : Unit => 2) → ℂ),
    (fun t : ℝ => (∫ x : Unit → ℝ, (normalDensity x : ℂ) *
      (let Q := qalpha [(w.el.weight, w.chi)]
       let z := zlambda S [(w.el.weight, k)]
       let T := withField (withStep S t) Q
       let xb := xbar T k
       Complex.exp (cfb x xb + cmf t x xb S.el.lbar) *
        (overlap Da (move T (fieldOp T x xb) (T.expH 0) w.el.phia)
          (beta S.el.two (Db, move T (fieldOp T x xb) (T.expH 1) w.el.phib)) *
        bosonOvlp psi (moveP (withStep S t) z w.chi)))) -
      matrixElement S Da Db psi w
        (NormedSpace.exp ((-t : ℂ) • full (Sum.elim (fun _ => S.h 0) fun _ => S.h 1) S.Hb S.el.L S.el.lbar
          S.geb position shift))
        (NormedSpace.exp ((-t : ℂ) • full (fun _ => S.h 0) S.Hb S.el.L S.el.lbar S.geb position shift)))
      =O[𝓝[≥] 0] (fun t : ℝ => t ^ 2) := by
  refine ⟨demo, demoWalker, (!![1; 2], 0), by norm_num [demo], rfl, demo_halves, by norm_num [demoWalker], ?_⟩
  intro shift hall
  have hQ : qalpha [(demoWalker.el.weight, demoWalker.chi)] () = 24 / 25 := by
    rw [qalpha_mean]
    simp only [List.map_cons, List.map_nil, List.sum_cons, List.sum_nil, add_zero, demo_quadratic]
    norm_num [demoWalker]
  have hz : zlambda demo [(demoWalker.el.weight, (!![1; 2], 0))] () = 4 := by
    have h1 := zlambda_mean demo [(demoWalker, (!![1; 2], 0))] (by simpa using demo_halves) ()
    simp only [List.map_cons, List.map_nil, List.sum_cons, List.sum_nil, add_zero] at h1
    rw [h1, show meanE demo demoWalker (demo.geb ()) = 4 from demo_mixed.1]
    norm_num [demoWalker]
  have hb : bosonOvlp demo.psi demoWalker.chi ≠ 0 := by rw [demo_boson]; norm_num
  have d1 : ManyBody.element (!![1; 0] : Matrix (Fin 2) (Fin 1) ℂ) (!![1; 0] : Matrix (Fin 2) (Fin 1) ℂ) 1
      !![1; 2] !![1; 2] ≠ 0 := by
    rw [element_one]
    exact mul_ne_zero (ghalf_det demo_ghalf) (ghalf_det demo_ghalf)
  have d2 : ManyBody.element (!![0; 1] : Matrix (Fin 2) (Fin 1) ℂ) (!![0; 1] : Matrix (Fin 2) (Fin 1) ℂ) 1
      !![1; 2] !![1; 2] ≠ 0 := by
    rw [element_one]
    exact mul_ne_zero (ghalf_det demo_ghalf') (ghalf_det demo_ghalf')
  have key : ∀ D : Matrix (Fin 2) (Fin 1) ℂ, ManyBody.element D D 1 !![1; 2] !![1; 2] ≠ 0 →
      (mixed D D !![1; 2] !![1; 2] !![0, 1; 1, 0] - 4) * (4 / 3 - 24 / 25) = 4 * (24 / 25) - shift := by
    intro D hD
    have h1 := (product_element_iff demo (by norm_num [demo]) _ _ D D demo.psi demoWalker
      (!![1; 2], 0) shift).1 (hall D D demo.psi)
    have e1 : ∀ X Y, matrixElement demo D D demo.psi demoWalker X Y =
        JointStep.element D D demo.psi Y !![1; 2] !![1; 2] demoWalker.chi := fun X Y => rfl
    rw [e1, e1, element_coupling _ _ _ _ _ _ _ _ _ _ hD hb, element_unit] at h1
    have h2 := mul_right_cancel₀ (mul_ne_zero hD hb) h1
    simp only [Finset.univ_unique, Finset.sum_singleton] at h2
    rw [show (default : Unit) = () from rfl, demo_mixedB, hQ, hz] at h2
    exact h2
  have k1 := key _ d1
  have k2 := key _ d2
  rw [demo_mixed.1] at k1
  rw [demo_mixed.2] at k2
  rw [← k1] at k2
  norm_num at k2

end OpenMS.ProductStep
