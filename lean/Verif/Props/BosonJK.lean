import Verif.Model.BosonJK
import Mathlib.Tactic

/-!
# C137: self energy matrices of the boson class
-/

namespace OpenMS.Photon

open Finset

variable {X n : Type*} [Fintype X] [Fintype n]

/-- C137: `get_dse_jk` of the boson class on the transposed density is the one of the mean field class, for
symmetric couplings, every density matrix and every factor. -/
theorem jk_transpose (g : X → Matrix n n ℝ) (hg : ∀ x p q, g x p q = g x q p) (gv : X → ℝ) (D : Matrix n n ℝ) :
    jDse g gv D = vjDse g gv D ∧ kDse g gv D.transpose = vkDse g gv D := by
  constructor
  · ext p q
    simp only [jDse, vjDse, contract, Matrix.of_apply]
    refine Finset.sum_congr rfl fun x _ => ?_
    have e : ∑ a, ∑ b, g x a b * D b a = ∑ p, ∑ q, D p q * g x p q := by
      rw [Finset.sum_comm]
      refine Finset.sum_congr rfl fun a _ => Finset.sum_congr rfl fun b _ => ?_
      rw [hg x b a]; ring
    rw [e]; ring
  · ext p q
    simp only [kDse, vkDse, Matrix.of_apply, Matrix.transpose_apply]
    refine Finset.sum_congr rfl fun x _ => ?_
    rw [Finset.mul_sum]
    refine Finset.sum_congr rfl fun r _ => ?_
    rw [Finset.mul_sum, Finset.mul_sum, Finset.sum_mul]
    refine Finset.sum_congr rfl fun s _ => ?_
    rw [hg x s q]; ring

/-- C137: for symmetric densities both classes give the same matrices whenever they use the same factor. -/
theorem jk_agree (g : X → Matrix n n ℝ) (hg : ∀ x p q, g x p q = g x q p) (residue addDse : Bool)
    (h : residue = true → addDse = true) (f : X → ℝ) (D : Matrix n n ℝ) (hD : D.transpose = D) :
    jkDse g residue f [D] = [(vjDse g (fun x => gvar2 residue addDse (f x)) D,
      vkDse g (fun x => gvar2 residue addDse (f x)) D)] := by
  have e : (fun x => gDse residue (f x)) = fun x => gvar2 residue addDse (f x) := by
    funext x
    unfold gDse gvar2
    cases residue
    · simp
    · simp [h rfl, sq]
  obtain ⟨h1, h2⟩ := jk_transpose g hg (fun x => gvar2 residue addDse (f x)) D
  rw [hD] at h2
  simp only [jkDse, List.map_cons, List.map_nil, e, h1, h2]

/-- C137: without bare self energy the residual matrices of the boson class exceed those of the mean field class by
the whole bare matrices, for every variational parameter. -/
theorem jk_residue_fails (g : X → Matrix n n ℝ) (hg : ∀ x p q, g x p q = g x q p) (f : X → ℝ) (D : Matrix n n ℝ)
    (hD : D.transpose = D) :
    jkDse g true f [D] = [(vjDse g (fun x => gvar2 true false (f x)) D + vjDse g (fun _ => 1) D,
      vkDse g (fun x => gvar2 true false (f x)) D + vkDse g (fun _ => 1) D)] := by
  rw [jk_agree g hg true true (fun _ => rfl) f D hD]
  have e : ∀ y : ℝ, gvar2 true true y = gvar2 true false y + 1 := by
    intro y; unfold gvar2; simp; ring
  congr 2
  · ext p q
    simp only [vjDse, Matrix.add_apply, Matrix.of_apply, e, ← Finset.sum_add_distrib]
    refine Finset.sum_congr rfl fun x _ => by ring
  · ext p q
    simp only [vkDse, Matrix.add_apply, Matrix.of_apply, e, ← Finset.sum_add_distrib]
    refine Finset.sum_congr rfl fun x _ => Finset.sum_congr rfl fun r _ => by ring

/-- C137: the Coulomb energy of the self energy is the weighted sum of squares of the mean dipoles; with these
factors it is never negative. -/
theorem j_energy (g : X → Matrix n n ℝ) (residue : Bool) (f : X → ℝ) (D : Matrix n n ℝ) :
    (jDse g (fun x => gDse residue (f x)) D * D).trace = ∑ x, gDse residue (f x) * ((g x * D).trace) ^ 2 ∧
      0 ≤ (jDse g (fun x => gDse residue (f x)) D * D).trace := by
  have e : (jDse g (fun x => gDse residue (f x)) D * D).trace = ∑ x, gDse residue (f x) * ((g x * D).trace) ^ 2 := by
    simp only [Matrix.trace, Matrix.diag, Matrix.mul_apply, jDse, Matrix.of_apply]
    calc _ = ∑ p, ∑ q, ∑ x, gDse residue (f x) * (∑ a, ∑ b, g x a b * D b a) * g x p q * D q p :=
          Finset.sum_congr rfl fun p _ => Finset.sum_congr rfl fun q _ => Finset.sum_mul _ _ _
      _ = ∑ p, ∑ x, ∑ q, gDse residue (f x) * (∑ a, ∑ b, g x a b * D b a) * g x p q * D q p :=
          Finset.sum_congr rfl fun p _ => Finset.sum_comm
      _ = ∑ x, ∑ p, ∑ q, gDse residue (f x) * (∑ a, ∑ b, g x a b * D b a) * g x p q * D q p := Finset.sum_comm
      _ = _ := ?_
    refine Finset.sum_congr rfl fun x _ => ?_
    have h : ∀ y : ℝ, ∑ p, ∑ q, y * g x p q * D q p = y * ∑ p, ∑ q, g x p q * D q p := by
      intro y
      rw [Finset.mul_sum]
      refine Finset.sum_congr rfl fun p _ => ?_
      rw [Finset.mul_sum]
      exact Finset.sum_congr rfl fun q _ => by ring
    rw [h, sq, mul_assoc]
  refine ⟨e, ?_⟩
  rw [e]
  refine Finset.sum_nonneg fun x _ => mul_nonneg ?_ (sq_nonneg _)
  unfold gDse
  split_ifs
  · exact mul_self_nonneg _
  · norm_num

/-- C137: the exchange matrix is `g Dᵀ g` summed over the modes. -/
theorem k_product (g : X → Matrix n n ℝ) (gd : X → ℝ) (D : Matrix n n ℝ) :
    kDse g gd D = ∑ x, gd x • (g x * D.transpose * g x) := by
  ext p q
  rw [Matrix.sum_apply]
  simp only [kDse, Matrix.of_apply, Matrix.smul_apply, smul_eq_mul, Matrix.mul_apply, Matrix.transpose_apply]
  refine Finset.sum_congr rfl fun x _ => ?_
  congr 1
  rw [Finset.sum_comm]
  refine Finset.sum_congr rfl fun s _ => ?_
  rw [Finset.sum_mul]
  refine Finset.sum_congr rfl fun r _ => by ring

/-- C137: for one doubly occupied orbital `v` exchange and Coulomb energy are equal, so that `J - K / 2` leaves half of
the Coulomb energy (no self interaction beyond the pair). -/
theorem jk_one_orbital (g : X → Matrix n n ℝ) (gd : X → ℝ) (v : n → ℝ) :
    (kDse g gd (Matrix.of fun p q => 2 * (v p * v q)) * Matrix.of fun p q => 2 * (v p * v q)).trace =
      (jDse g gd (Matrix.of fun p q => 2 * (v p * v q)) * Matrix.of fun p q => 2 * (v p * v q)).trace := by
  simp only [Matrix.trace, Matrix.diag, Matrix.mul_apply, jDse, kDse, Matrix.of_apply, Finset.sum_mul, Finset.mul_sum]
  rw [Finset.sum_congr rfl fun p _ => Finset.sum_comm, Finset.sum_comm]
  symm
  rw [Finset.sum_congr rfl fun p _ => Finset.sum_comm, Finset.sum_comm]
  refine Finset.sum_congr rfl fun x _ => ?_
  calc ∑ p, ∑ q, ∑ a, ∑ b, gd x * (g x a b * (2 * (v b * v a))) * g x p q * (2 * (v q * v p))
      = ∑ p, ∑ a, ∑ q, ∑ b, gd x * (g x a b * (2 * (v b * v a))) * g x p q * (2 * (v q * v p)) :=
        Finset.sum_congr rfl fun p _ => Finset.sum_comm
    _ = ∑ p, ∑ a, ∑ b, ∑ q, gd x * (g x a b * (2 * (v b * v a))) * g x p q * (2 * (v q * v p)) :=
        Finset.sum_congr rfl fun p _ => Finset.sum_congr rfl fun a _ => Finset.sum_comm
    _ = ∑ p, ∑ b, ∑ q, ∑ a, gd x * (g x p q * g x a b * (2 * (v a * v q))) * (2 * (v b * v p)) := ?_
  refine Finset.sum_congr rfl fun p _ => ?_
  rw [Finset.sum_comm]
  refine Finset.sum_congr rfl fun b _ => ?_
  rw [Finset.sum_comm]
  refine Finset.sum_congr rfl fun q _ => Finset.sum_congr rfl fun a _ => by ring

/-- C137: `get_bdag_minus_b_expval` is the expectation value of the sum of the ladder operators. -/
theorem bdagMinusB_eq (mdim idx : ℕ) (c : ℕ → ℝ) :
    bdagMinusB (mdim + 1) idx c = 2 * ∑ k ∈ range mdim, Real.sqrt (k + 1) * (c (idx + k) * c (idx + (k + 1))) := by
  unfold bdagMinusB ladder modeDm
  simp only [add_mul, Finset.sum_add_distrib, ite_mul, zero_mul]
  have e1 : ∑ a ∈ range (mdim + 1), ∑ b ∈ range (mdim + 1),
      (if b = a + 1 then Real.sqrt b * (c (idx + a) * c (idx + b)) else 0) =
      ∑ k ∈ range mdim, Real.sqrt (k + 1) * (c (idx + k) * c (idx + (k + 1))) := by
    rw [Finset.sum_range_succ]
    rw [Finset.sum_eq_zero (s := range (mdim + 1)) (f := fun b => if b = mdim + 1 then _ else 0), add_zero]
    · refine Finset.sum_congr rfl fun a ha => ?_
      rw [Finset.sum_ite_eq' (range (mdim + 1)) (a + 1), if_pos (by have := Finset.mem_range.1 ha; simp; omega)]
      push_cast; rfl
    · intro b hb
      rw [if_neg (by have := Finset.mem_range.1 hb; omega)]
  have e2 : ∑ a ∈ range (mdim + 1), ∑ b ∈ range (mdim + 1),
      (if a = b + 1 then Real.sqrt a * (c (idx + a) * c (idx + b)) else 0) =
      ∑ k ∈ range mdim, Real.sqrt (k + 1) * (c (idx + k) * c (idx + (k + 1))) := by
    rw [Finset.sum_comm, ← e1]
    refine Finset.sum_congr rfl fun a _ => Finset.sum_congr rfl fun b _ => ?_
    rw [mul_comm (c (idx + b))]
  rw [e1, e2]; ring

/-- The matrix of the difference of the ladder operators: `⟨a| b† - b |b⟩`. -/
noncomputable def ladderDiff (a b : ℕ) : ℝ :=
  (if a = b + 1 then Real.sqrt a else 0) - (if b = a + 1 then Real.sqrt b else 0)

/-- C137: the expectation value named by the function vanishes for all real coefficients, while the returned one is
positive for every mode with positive coefficients. -/
theorem bdagMinusB_fails (mdim idx : ℕ) (hm : 2 ≤ mdim) (c : ℕ → ℝ) (hc : ∀ k, 0 < c k) :
    ∑ a ∈ range mdim, ∑ b ∈ range mdim, ladderDiff a b * modeDm idx c a b = 0 ∧ 0 < bdagMinusB mdim idx c := by
  constructor
  · have h : ∑ a ∈ range mdim, ∑ b ∈ range mdim, ladderDiff a b * modeDm idx c a b =
        -∑ a ∈ range mdim, ∑ b ∈ range mdim, ladderDiff a b * modeDm idx c a b := by
      conv_lhs => rw [Finset.sum_comm]
      rw [← Finset.sum_neg_distrib]
      refine Finset.sum_congr rfl fun a _ => ?_
      rw [← Finset.sum_neg_distrib]
      refine Finset.sum_congr rfl fun b _ => ?_
      unfold ladderDiff modeDm; ring
    linarith
  · obtain ⟨k, rfl⟩ : ∃ k, mdim = k + 2 := ⟨mdim - 2, by omega⟩
    rw [bdagMinusB_eq]
    refine mul_pos two_pos (Finset.sum_pos (fun j _ => ?_) ⟨0, by simp⟩)
    exact mul_pos (Real.sqrt_pos.2 (by positivity)) (mul_pos (hc _) (hc _))

/-! ### Examples -/

/-- A density that is not symmetric tells the two exchange matrices apart. -/
example : kDse (fun _ : Unit => !![1, 0; 0, 2]) (fun _ => 1) !![0, 1; 0, 0] 0 1 = 0 ∧
    vkDse (fun _ : Unit => !![1, 0; 0, 2]) (fun _ => 1) !![0, 1; 0, 0] 0 1 = 2 := by
  constructor <;> simp [kDse, vkDse, Fin.sum_univ_two]

example : gDse true (1 / 2) = 1 / 4 ∧ gvar2 true false (1 / 2) = -3 / 4 := by
  constructor <;> norm_num [gDse, gvar2]

end OpenMS.Photon
