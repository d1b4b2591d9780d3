import Verif.Model.QmcIntegrals
import Verif.Props.FciIntegrals
import Mathlib.Analysis.Matrix.Order

/-!
# C138: integrals of the Monte Carlo class
-/

namespace OpenMS.QmcIntegrals

open Matrix
open scoped BigOperators MatrixOrder ComplexOrder

set_option linter.unusedSectionVars false

variable {n : Type*} [Fintype n] [DecidableEq n]

section svd
variable {k : Type*} [Fintype k] [DecidableEq k]

/-- Positive semidefinite matrices with the same square agree. -/
theorem psd_sq_unique {A B : Matrix k k ℝ} (hA : A.PosSemidef) (hB : B.PosSemidef) (h : A * A = B * B) : A = B := by
  have ha := CFC.sqrt_mul_self A (Matrix.nonneg_iff_posSemidef.2 hA)
  have hb := CFC.sqrt_mul_self B (Matrix.nonneg_iff_posSemidef.2 hB)
  rw [← ha, ← hb, h]

theorem psd_diag (U : Matrix k k ℝ) (s : k → ℝ) (hs : ∀ i, 0 ≤ s i) : (U * Matrix.diagonal s * Uᵀ).PosSemidef := by
  have h := (Matrix.PosSemidef.diagonal (R := ℝ) (d := s) (fun i => hs i)).mul_mul_conjTranspose_same U
  simpa [Matrix.conjTranspose_eq_transpose_of_trivial] using h

/-- For a positive semidefinite matrix the left vectors of the decomposition are eigenvectors. -/
theorem svd_psd {M U V : Matrix k k ℝ} {s : k → ℝ} (h : IsSvd M U V s) (hM : M.PosSemidef) :
    M = U * Matrix.diagonal s * Uᵀ := by
  refine psd_sq_unique hM (psd_diag U s h.nonneg) ?_
  have hT : Mᵀ = M := by
    have := hM.isHermitian.eq
    rwa [Matrix.conjTranspose_eq_transpose_of_trivial] at this
  calc M * M = M * Mᵀ := by rw [hT]
    _ = U * Matrix.diagonal s * (V * Vᵀ) * Matrix.diagonal s * Uᵀ := by
        rw [h.eq]
        simp only [Matrix.transpose_mul, Matrix.diagonal_transpose, Matrix.mul_assoc]
    _ = U * Matrix.diagonal s * (Uᵀ * U) * Matrix.diagonal s * Uᵀ := by rw [h.right, h.left]
    _ = _ := by simp only [Matrix.mul_assoc]

/-- A positive semidefinite matrix has such a decomposition. -/
theorem svd_exists {M : Matrix k k ℝ} (hM : M.PosSemidef) : ∃ U V s, IsSvd M U V s := by
  have hu := hM.isHermitian.eigenvectorUnitary.2
  set U : Matrix k k ℝ := (hM.isHermitian.eigenvectorUnitary : Matrix k k ℝ)
  have h1 : Uᵀ * U = 1 := by
    have := (Unitary.mem_iff.1 hu).1
    rwa [Matrix.star_eq_conjTranspose, Matrix.conjTranspose_eq_transpose_of_trivial] at this
  refine ⟨U, Uᵀ, hM.isHermitian.eigenvalues, ?_, h1, ?_, hM.eigenvalues_nonneg⟩
  · have := hM.isHermitian.spectral_theorem
    rw [Unitary.conjStarAlgAut_apply, Matrix.star_eq_conjTranspose,
      Matrix.conjTranspose_eq_transpose_of_trivial] at this
    simpa using this
  · rw [Matrix.transpose_transpose]; exact h1

end svd

/-- The fields of the decomposition stand for the part of `U diag(s) Uᵀ` above the threshold. -/
theorem tensor_cholFull (U : Matrix (n × n) (n × n) ℝ) (s : n × n → ℝ) (hs : ∀ i, 0 ≤ s i) (thresh : ℝ) (p q r t : n) :
    tensor (cholFull U s thresh) p q r t =
      (U * Matrix.diagonal (fun γ => if thresh < s γ then s γ else 0) * Uᵀ) (p, q) (r, t) := by
  unfold tensor cholFull
  rw [List.map_map, Finset.sum_map_toList, Matrix.mul_apply, Finset.sum_filter]
  refine Finset.sum_congr rfl fun γ _ => ?_
  rw [Matrix.mul_diagonal, Matrix.transpose_apply]
  by_cases h : thresh < s γ
  · simp only [if_pos h, Function.comp, Matrix.of_apply]
    have := Real.mul_self_sqrt (hs γ)
    linear_combination U (p, q) γ * U (r, t) γ * this
  · simp only [if_neg h]; ring

/-- C138: with threshold zero the fields of the singular value decomposition reproduce the integrals exactly
when the matrix of integrals is positive semidefinite (a negative eigenvalue comes back with the other sign). -/
theorem cholFull_exact_iff {M U V : Matrix (n × n) (n × n) ℝ} {s : n × n → ℝ} (h : IsSvd M U V s) :
    (∀ p q r t, tensor (cholFull U s 0) p q r t = M (p, q) (r, t)) ↔ M.PosSemidef := by
  have h0 : (fun γ => if 0 < s γ then s γ else 0) = s := by
    funext γ
    by_cases hγ : 0 < s γ
    · rw [if_pos hγ]
    · rw [if_neg hγ]; exact le_antisymm (h.nonneg γ) (not_lt.1 hγ)
  constructor
  · intro he
    have : M = U * Matrix.diagonal s * Uᵀ := by
      ext ⟨p, q⟩ ⟨r, t⟩
      rw [← he, tensor_cholFull U s h.nonneg, h0]
    rw [this]; exact psd_diag U s h.nonneg
  · intro hM p q r t
    rw [tensor_cholFull U s h.nonneg, h0, ← svd_psd h hM]

/-- C138: for any threshold the truncated part is positive semidefinite and at most the threshold: for every
vector `v` over pairs, `0 ≤ v (M - Σ L L) v ≤ thresh |v|²`. -/
theorem cholFull_bound {M U V : Matrix (n × n) (n × n) ℝ} {s : n × n → ℝ} (h : IsSvd M U V s) (hM : M.PosSemidef)
    (thresh : ℝ) (h0 : 0 ≤ thresh) (v : n × n → ℝ) :
    0 ≤ ∑ a : n × n, ∑ b : n × n, v a * (M a b - tensor (cholFull U s thresh) a.1 a.2 b.1 b.2) * v b ∧
      ∑ a : n × n, ∑ b : n × n, v a * (M a b - tensor (cholFull U s thresh) a.1 a.2 b.1 b.2) * v b ≤
        thresh * ∑ a, v a ^ 2 := by
  set w : n × n → ℝ := Uᵀ *ᵥ v with hw
  have hnorm : ∑ γ, w γ ^ 2 = ∑ a, v a ^ 2 := by
    have h1 : w ⬝ᵥ w = v ⬝ᵥ v := by
      have hUU : U * Uᵀ = 1 := mul_eq_one_comm.1 h.left
      rw [hw, Matrix.mulVec_transpose, ← Matrix.dotProduct_mulVec, ← Matrix.mulVec_transpose,
        Matrix.mulVec_mulVec, hUU, Matrix.one_mulVec]
    simpa [dotProduct, pow_two] using h1
  have key : ∑ a : n × n, ∑ b : n × n, v a * (M a b - tensor (cholFull U s thresh) a.1 a.2 b.1 b.2) * v b =
      ∑ γ, (if thresh < s γ then 0 else s γ) * w γ ^ 2 := by
    have e1 : ∀ a b : n × n, v a * (M a b - tensor (cholFull U s thresh) a.1 a.2 b.1 b.2) * v b =
        ∑ γ, (if thresh < s γ then 0 else s γ) * ((U a γ * v a) * (U b γ * v b)) := by
      intro a b
      rw [tensor_cholFull U s h.nonneg]
      conv_lhs => rw [svd_psd h hM]
      rw [Matrix.mul_apply, Matrix.mul_apply, ← Finset.sum_sub_distrib, Finset.mul_sum, Finset.sum_mul]
      refine Finset.sum_congr rfl fun γ _ => ?_
      rw [Matrix.mul_diagonal, Matrix.mul_diagonal, Matrix.transpose_apply]
      by_cases hγ : thresh < s γ
      · simp only [if_pos hγ]; ring
      · simp only [if_neg hγ]; ring
    calc _ = ∑ a, ∑ b, ∑ γ, (if thresh < s γ then 0 else s γ) * ((U a γ * v a) * (U b γ * v b)) :=
          Finset.sum_congr rfl fun a _ => Finset.sum_congr rfl fun b _ => e1 a b
      _ = ∑ a, ∑ γ, ∑ b, (if thresh < s γ then 0 else s γ) * ((U a γ * v a) * (U b γ * v b)) :=
          Finset.sum_congr rfl fun a _ => Finset.sum_comm
      _ = ∑ γ, ∑ a, ∑ b, (if thresh < s γ then 0 else s γ) * ((U a γ * v a) * (U b γ * v b)) := Finset.sum_comm
      _ = _ := by
          refine Finset.sum_congr rfl fun γ _ => ?_
          have hwγ : w γ = ∑ a, U a γ * v a := by
            rw [hw]; rfl
          rw [hwγ, pow_two, Finset.sum_mul_sum, Finset.mul_sum]
          exact Finset.sum_congr rfl fun a _ => by rw [Finset.mul_sum]
  rw [key, ← hnorm, Finset.mul_sum]
  constructor
  · refine Finset.sum_nonneg fun γ _ => mul_nonneg ?_ (sq_nonneg _)
    by_cases hγ : thresh < s γ
    · rw [if_pos hγ]
    · rw [if_neg hγ]; exact h.nonneg γ
  · refine Finset.sum_le_sum fun γ _ => mul_le_mul_of_nonneg_right ?_ (sq_nonneg _)
    by_cases hγ : thresh < s γ
    · rw [if_pos hγ]; exact h0
    · rw [if_neg hγ]; exact not_lt.1 hγ

/-- Adding the products of couplings keeps the matrix positive semidefinite. -/
theorem eriMat_psd (eri : n → n → n → n → ℝ) (h : (eriMat eri none).PosSemidef) (g : Option (List (Matrix n n ℝ))) :
    (eriMat eri g).PosSemidef := by
  cases g with
  | none => exact h
  | some gs =>
    induction gs with
    | nil =>
      have : eriMat eri (some []) = eriMat eri none := by ext a b; simp [eriMat]
      rw [this]; exact h
    | cons G gs ih =>
      have : eriMat eri (some (G :: gs)) = eriMat eri (some gs) +
          Matrix.vecMulVec (fun a : n × n => G a.1 a.2) (star fun a : n × n => G a.1 a.2) := by
        ext a b
        simp only [eriMat, Matrix.of_apply, List.map_cons, List.sum_cons, Matrix.add_apply, Matrix.vecMulVec_apply,
          star_trivial]
        ring
      rw [this]
      exact ih.add (Matrix.posSemidef_vecMulVec_self_star _)

/-- The integrals in the orthogonal basis. -/
def eriOrth (X : Matrix n n ℝ) (eri : n → n → n → n → ℝ) (i j k l : n) : ℝ :=
  ∑ p, ∑ q, ∑ r, ∑ s, X p i * X q j * X r k * X s l * eri p q r s

theorem toOrth_apply (X A : Matrix n n ℝ) (i j : n) : toOrth X A i j = ∑ p, ∑ q, X p i * X q j * A p q := by
  unfold toOrth
  simp only [Matrix.mul_apply, Matrix.transpose_apply, Finset.sum_mul]
  rw [Finset.sum_comm]
  exact Finset.sum_congr rfl fun p _ => Finset.sum_congr rfl fun q _ => by ring

theorem eriOrth_mul (X A B : Matrix n n ℝ) (i j k l : n) :
    eriOrth X (fun p q r s => A p q * B r s) i j k l = toOrth X A i j * toOrth X B k l := by
  rw [toOrth_apply, toOrth_apply, Finset.sum_mul]
  unfold eriOrth
  refine Finset.sum_congr rfl fun p _ => ?_
  rw [Finset.sum_mul]
  refine Finset.sum_congr rfl fun q _ => ?_
  rw [Finset.mul_sum]
  refine Finset.sum_congr rfl fun r _ => ?_
  rw [Finset.mul_sum]
  exact Finset.sum_congr rfl fun s _ => by ring

theorem eriOrth_add (X : Matrix n n ℝ) (a b : n → n → n → n → ℝ) (i j k l : n) :
    eriOrth X (fun p q r s => a p q r s + b p q r s) i j k l = eriOrth X a i j k l + eriOrth X b i j k l := by
  unfold eriOrth
  simp only [mul_add, Finset.sum_add_distrib]

theorem tensor_orth (X : Matrix n n ℝ) (ls : List (Matrix n n ℝ)) (i j k l : n) :
    tensor (ls.map (toOrth X)) i j k l = eriOrth X (tensor ls) i j k l := by
  induction ls with
  | nil => simp [tensor, eriOrth]
  | cons L ls ih =>
    have h : tensor (L :: ls) = fun p q r s => L p q * L r s + tensor ls p q r s := by
      funext p q r s; simp [tensor]
    rw [h, eriOrth_add, eriOrth_mul, ← ih]
    simp [tensor]

theorem tensor_append (a b : List (Matrix n n ℝ)) (i j k l : n) :
    tensor (a ++ b) i j k l = tensor a i j k l + tensor b i j k l := by
  simp [tensor]

section integrals
variable (merge decouple turnoff : Bool) (hcore X : Matrix n n ℝ) (g : List (Matrix n n ℝ)) (freq : List ℝ)
  (bil : List (Matrix n n ℝ)) (chols : Option (List (Matrix n n ℝ)) → List (Matrix n n ℝ))

/-- C138: when the routine for the fields is exact, the bare fields stand for the transformed integrals plus the
products of the transformed couplings, whether the couplings are merged into the integrals or appended. -/
theorem bare_tensor (eri : n → n → n → n → ℝ)
    (hex : ∀ o p q r s, tensor (chols o) p q r s = eriMat eri o (p, q) (r, s)) (i j k l : n) :
    let o := getIntegrals true merge decouple turnoff hcore X g freq chols bil
    tensor (o.ltensor.take o.nbare) i j k l =
      eriOrth X eri i j k l + (g.map fun G => toOrth X G i j * toOrth X G k l).sum := by
  have hn : tensor (chols none) = eri := by
    funext p q r s; rw [hex]; simp [eriMat]
  have hs : tensor (chols (some g)) = fun p q r s => eri p q r s + tensor g p q r s := by
    funext p q r s; rw [hex]; simp [eriMat, tensor]
  have hg : tensor (g.map (toOrth X)) i j k l = (g.map fun G => toOrth X G i j * toOrth X G k l).sum := by
    unfold tensor; rw [List.map_map]; rfl
  cases merge <;> cases decouple <;> cases turnoff <;>
    simp only [getIntegrals, Bool.true_and, Bool.false_and, Bool.not_true, Bool.not_false, if_true,
      Bool.false_eq_true, if_false, ← List.length_append, List.take_left', List.take_length,
      tensor_append] <;>
    first
      | (rw [tensor_orth, hn, hg])
      | (rw [tensor_orth, hs, eriOrth_add, ← tensor_orth, hg])

/-- C138: the same with the fields of `chols_full` at threshold zero: it is enough that the matrix of the bare integrals
is positive semidefinite. -/
theorem bare_tensor_svd (eri : n → n → n → n → ℝ) (hp : (eriMat eri none).PosSemidef)
    (U V : Option (List (Matrix n n ℝ)) → Matrix (n × n) (n × n) ℝ) (s : Option (List (Matrix n n ℝ)) → n × n → ℝ)
    (hsvd : ∀ o, IsSvd (eriMat eri o) (U o) (V o) (s o)) (i j k l : n) :
    let o := getIntegrals true merge decouple turnoff hcore X g freq (fun o => cholFull (U o) (s o) 0) bil
    tensor (o.ltensor.take o.nbare) i j k l =
      eriOrth X eri i j k l + (g.map fun G => toOrth X G i j * toOrth X G k l).sum :=
  bare_tensor merge decouple turnoff hcore X g freq bil _ eri
    (fun o p q r t => (cholFull_exact_iff (hsvd o)).2 (eriMat_psd eri hp o) p q r t) i j k l

/-- C138: the number of fields beyond the bare ones is the number of bilinear fields when they are decoupled and the
bosons are on, zero otherwise, and these fields are the bilinear ones. -/
theorem extra_fields :
    let o := getIntegrals true merge decouple turnoff hcore X g freq chols bil
    o.nfields = o.ltensor.length ∧ o.nbare ≤ o.nfields ∧
      o.ltensor.drop o.nbare = (if decouple = true ∧ turnoff = false then bil else []) ∧
      o.nfields - o.nbare = (if decouple = true ∧ turnoff = false then bil.length else 0) := by
  cases merge <;> cases decouple <;> cases turnoff <;> simp [getIntegrals, ← Nat.add_assoc]
  rw [← List.append_assoc]
  exact List.drop_left' (by simp)

/-- C138: the bilinear coupling of every mode is the transformed coupling times `√(ω/2)`. -/
theorem geb_eq (hl : g.length = freq.length) (m : ℕ) (hm : m < g.length) :
    ((getIntegrals true merge decouple turnoff hcore X g freq chols bil).geb.bind (·[m]?)) =
      some (√(freq[m]'(hl ▸ hm) / 2) • toOrth X g[m]) := by
  have hm' : m < freq.length := hl ▸ hm
  simp only [getIntegrals, if_true, Option.bind_some, List.getElem?_zipWith, List.getElem?_map,
    List.getElem?_eq_getElem hm, List.getElem?_eq_getElem hm', Option.map_some]
  simp [div_eq_mul_inv]

/-- C138: without coupling nothing is added. -/
theorem bare_system : getIntegrals false merge decouple turnoff hcore X g freq chols bil =
    ⟨toOrth X hcore, (chols none).map (toOrth X), (chols none).length, (chols none).length, none⟩ := by
  simp [getIntegrals]

end integrals

section operator
open OpenMS.QedFci OpenMS.FciIntegrals
variable {nao m : ℕ} {Sa Sb : Type*} [Fintype Sa] [Fintype Sb] [DecidableEq Sa] [DecidableEq Sb]

/-- C138: the electronic Hamiltonian given by `h1e` and the bare fields is the one of the transformed integrals plus half
the sum of the squares of the coupling operators, in both modes. -/
theorem operator (ta : Table (Fin nao) Sa) (tb : Table (Fin nao) Sb) (merge decouple turnoff : Bool)
    (hcore X : Matrix (Fin nao) (Fin nao) ℝ) (g : List (Matrix (Fin nao) (Fin nao) ℝ)) (freq : List ℝ)
    (bil : List (Matrix (Fin nao) (Fin nao) ℝ))
    (chols : Option (List (Matrix (Fin nao) (Fin nao) ℝ)) → List (Matrix (Fin nao) (Fin nao) ℝ))
    (eri : Fin nao → Fin nao → Fin nao → Fin nao → ℝ)
    (hex : ∀ o p q r s, tensor (chols o) p q r s = eriMat eri o (p, q) (r, s))
    (c : Sa × Sb → (Fin m → ℕ) → ℝ) (s : Sa × Sb) (σ : Fin m → ℕ) :
    let o := getIntegrals true merge decouple turnoff hcore X g freq chols bil
    elecH ta tb o.h1e (tensor (o.ltensor.take o.nbare)) c s σ =
      elecH ta tb (toOrth X hcore) (eriOrth X eri) c s σ +
        1 / 2 * (g.map fun G => oneBody ta tb (toOrth X G) (oneBody ta tb (toOrth X G) c) s σ).sum := by
  intro o
  have hh : (o.h1e : Fin nao → Fin nao → ℝ) =
      hcoreDse (toOrth X hcore) (fun i : Fin g.length => toOrth X g[i.1]) := by
    funext p q
    have : o.h1e = toOrth X hcore + (1 / 2 : ℝ) • ((g.map (toOrth X)).map fun G => G * G).sum := by
      simp [o, getIntegrals]
    rw [this, Matrix.add_apply, Matrix.smul_apply, List.map_map, ← Fin.sum_univ_fun_getElem, Matrix.sum_apply]
    unfold hcoreDse
    rfl
  have he : tensor (o.ltensor.take o.nbare) = eriDse (eriOrth X eri) (fun i : Fin g.length => toOrth X g[i.1]) := by
    funext i j k l
    rw [bare_tensor merge decouple turnoff hcore X g freq bil chols eri hex i j k l, ← Fin.sum_univ_fun_getElem]
    rfl
  rw [hh, he, ← Fin.sum_univ_fun_getElem]
  exact dse_operator ta tb _ _ (fun i : Fin g.length => toOrth X g[i.1]) c s σ

end operator

/-! ## Local energy -/

/-- The energy for any number of components. -/
theorem energy_any {S : Type*} [Fintype S] (h : n → n → ℝ) (eri : n → n → n → n → ℝ) (enuc : ℝ) (G : S → n → n → ℝ) :
    localEnergySpin h eri enuc G =
      2 * (1 / Fintype.card S) * (∑ a, ∑ p, ∑ q, h p q * G a p q) +
        2 * (1 / Fintype.card S) ^ 2 * (∑ a, ∑ b, ∑ p, ∑ r, ∑ q, ∑ s, eri p r q s * G a p r * G b q s) -
        1 / Fintype.card S * (∑ a, ∑ p, ∑ r, ∑ q, ∑ s, eri p r q s * G a p s * G a q r) + enuc := by
  unfold localEnergySpin
  generalize (1 : ℝ) / (Fintype.card S : ℝ) = f
  have h1 : ∑ a : S, ∑ p, ∑ q, G a p q * h p q = ∑ a : S, ∑ p, ∑ q, h p q * G a p q := by
    simp only [mul_comm]
  have h2 : ∑ a : S, ∑ q, ∑ s, (2 * (∑ b, ∑ p, ∑ r, eri p r q s * G b p r) * f) * G a q s =
      2 * f * ∑ a : S, ∑ b : S, ∑ p, ∑ r, ∑ q, ∑ s, eri p r q s * G a p r * G b q s := by
    have e : ∀ b : S, ∑ q, ∑ s, (2 * (∑ a, ∑ p, ∑ r, eri p r q s * G a p r) * f) * G b q s =
        2 * f * ∑ a : S, ∑ p, ∑ r, ∑ q, ∑ s, eri p r q s * G a p r * G b q s := by
      intro b
      calc ∑ q, ∑ s, (2 * (∑ a, ∑ p, ∑ r, eri p r q s * G a p r) * f) * G b q s
          = ∑ y : n × n, ∑ x : S × n × n, 2 * f * (eri x.2.1 x.2.2 y.1 y.2 * G x.1 x.2.1 x.2.2 * G b y.1 y.2) := by
            simp only [Fintype.sum_prod_type, ← Finset.mul_sum, ← Finset.sum_mul]
            rw [Finset.mul_sum]
            refine Finset.sum_congr rfl fun q _ => ?_
            rw [Finset.mul_sum]
            exact Finset.sum_congr rfl fun s _ => by ring
        _ = ∑ x : S × n × n, ∑ y : n × n, 2 * f * (eri x.2.1 x.2.2 y.1 y.2 * G x.1 x.2.1 x.2.2 * G b y.1 y.2) :=
            Finset.sum_comm
        _ = _ := by simp only [Fintype.sum_prod_type, ← Finset.mul_sum]
    rw [Finset.sum_congr rfl fun b _ => e b, ← Finset.mul_sum, Finset.sum_comm]
  have h3 : ∑ a : S, ∑ q, ∑ s, (∑ p, ∑ r, eri p s q r * G a p r) * G a q s =
      ∑ a : S, ∑ p, ∑ r, ∑ q, ∑ s, eri p r q s * G a p s * G a q r := by
    refine Finset.sum_congr rfl fun a _ => ?_
    calc ∑ q, ∑ s, (∑ p, ∑ r, eri p s q r * G a p r) * G a q s
        = ∑ q, ∑ s, ∑ p, ∑ r, eri p s q r * G a p r * G a q s := by simp only [Finset.sum_mul]
      _ = ∑ q, ∑ p, ∑ s, ∑ r, eri p s q r * G a p r * G a q s :=
          Finset.sum_congr rfl fun q _ => Finset.sum_comm
      _ = ∑ p, ∑ q, ∑ s, ∑ r, eri p s q r * G a p r * G a q s := Finset.sum_comm
      _ = ∑ p, ∑ s, ∑ q, ∑ r, eri p s q r * G a p r * G a q s :=
          Finset.sum_congr rfl fun p _ => Finset.sum_comm
  simp only [h1, h2, h3]
  ring

/-- C138: with two components the energy of a walker is the contraction of Wick's theorem with the two Green's functions. -/
theorem energy_two (h : n → n → ℝ) (eri : n → n → n → n → ℝ) (enuc : ℝ) (G : Fin 2 → n → n → ℝ) :
    localEnergySpin h eri enuc G =
      (∑ a, ∑ p, ∑ q, h p q * G a p q) +
        1 / 2 * (∑ a, ∑ b, ∑ p, ∑ r, ∑ q, ∑ s, eri p r q s * G a p r * G b q s) -
        1 / 2 * (∑ a, ∑ p, ∑ r, ∑ q, ∑ s, eri p r q s * G a p s * G a q r) + enuc := by
  rw [energy_any, Fintype.card_fin]
  norm_num

/-- C138: with one component the energy is the one of two components with equal Green's functions. -/
theorem energy_one (h : n → n → ℝ) (eri : n → n → n → n → ℝ) (enuc : ℝ) (G : n → n → ℝ) :
    localEnergySpin h eri enuc (fun _ : Fin 1 => G) = localEnergySpin h eri enuc (fun _ : Fin 2 => G) := by
  rw [energy_any, energy_any, Fintype.card_fin, Fintype.card_fin]
  simp only [Fin.sum_univ_one, Fin.sum_univ_two]
  norm_num
  ring

/-- C138: the energy of the deprecated routine from `TL_theta` agrees with the one from the integrals when the fields stand
for the integrals and `TL_theta` is `L Gᵀ` in the full basis. -/
theorem energy_chol (ls : List (Matrix n n ℝ)) (h G : Matrix n n ℝ) (enuc : ℝ) :
    localEnergy (ls.map fun L => L * Gᵀ) h G enuc = localEnergySpin h (tensor ls) enuc (fun _ : Fin 1 => G) := by
  refine Eq.trans ?_ (energy_any (S := Fin 1) h (tensor ls) enuc (fun _ => G)).symm
  rw [Fintype.card_fin]
  simp only [Fin.sum_univ_one]
  have ht : ∀ L : Matrix n n ℝ, Matrix.trace (L * Gᵀ) = ∑ p, ∑ r, L p r * G p r := fun L => by
    simp [Matrix.trace, Matrix.mul_apply]
  have hj : (ls.map fun L : Matrix n n ℝ => Matrix.trace (L * Gᵀ) * Matrix.trace (L * Gᵀ)).sum =
      ∑ p, ∑ r, ∑ q, ∑ s, tensor ls p r q s * G p r * G q s := by
    induction ls with
    | nil => simp [tensor]
    | cons L ls ih =>
      have hc : ∀ p r q s, tensor (L :: ls) p r q s = L p r * L q s + tensor ls p r q s := fun p r q s => by
        simp [tensor]
      simp only [List.map_cons, List.sum_cons, ih, hc, add_mul, Finset.sum_add_distrib]
      congr 1
      rw [ht, Finset.sum_mul]
      refine Finset.sum_congr rfl fun p _ => ?_
      rw [Finset.sum_mul]
      refine Finset.sum_congr rfl fun r _ => ?_
      rw [Finset.mul_sum]
      refine Finset.sum_congr rfl fun q _ => ?_
      rw [Finset.mul_sum]
      exact Finset.sum_congr rfl fun s _ => by ring
  have hk : (ls.map fun L : Matrix n n ℝ => Matrix.trace (L * Gᵀ * (L * Gᵀ))).sum =
      ∑ p, ∑ r, ∑ q, ∑ s, tensor ls p r q s * G p s * G q r := by
    clear hj
    induction ls with
    | nil => simp [tensor]
    | cons L ls ih =>
      have hc : ∀ p r q s, tensor (L :: ls) p r q s = L p r * L q s + tensor ls p r q s := fun p r q s => by
        simp [tensor]
      simp only [List.map_cons, List.sum_cons, ih, hc, add_mul, Finset.sum_add_distrib]
      congr 1
      simp only [Matrix.trace, Matrix.diag_apply, Matrix.mul_apply, Matrix.transpose_apply, Finset.sum_mul_sum]
      refine Finset.sum_congr rfl fun p _ => ?_
      rw [Finset.sum_comm]
      refine Finset.sum_congr rfl fun r _ => ?_
      refine Finset.sum_congr rfl fun q _ => ?_
      exact Finset.sum_congr rfl fun s _ => by ring
  unfold localEnergy
  simp only [List.map_map, Function.comp_def, hj, hk]
  have h1 : ∑ p, ∑ q, G p q * h p q = ∑ p, ∑ q, h p q * G p q := by simp only [mul_comm]
  rw [h1]
  norm_num
  ring

/-! ## Examples -/

/-- C138: integrals whose matrix is minus two times the identity come back with the other sign. -/
theorem negative_fails : ∃ (M U V : Matrix (Fin 2 × Fin 2) (Fin 2 × Fin 2) ℝ) (s : Fin 2 × Fin 2 → ℝ),
    IsSvd M U V s ∧ M (0, 1) (0, 1) = -2 ∧ tensor (cholFull U s 0) 0 1 0 1 = 2 := by
  refine ⟨-(Matrix.diagonal fun _ => 2), 1, -1, fun _ => 2, ⟨by simp, by simp, by simp, fun _ => by norm_num⟩,
    by simp, ?_⟩
  rw [tensor_cholFull _ _ (fun _ => by norm_num)]
  simp

/-- The hypotheses of `bare_tensor_svd` hold for integrals with matrix two times the identity. -/
example : ∃ (U V : Option (List (Matrix (Fin 2) (Fin 2) ℝ)) → Matrix (Fin 2 × Fin 2) (Fin 2 × Fin 2) ℝ)
    (s : Option (List (Matrix (Fin 2) (Fin 2) ℝ)) → Fin 2 × Fin 2 → ℝ),
    (eriMat (fun p q r s : Fin 2 => if p = r ∧ q = s then (2 : ℝ) else 0) none).PosSemidef ∧
    ∀ o, IsSvd (eriMat (fun p q r s : Fin 2 => if p = r ∧ q = s then (2 : ℝ) else 0) o) (U o) (V o) (s o) := by
  have hp : (eriMat (fun p q r s : Fin 2 => if p = r ∧ q = s then (2 : ℝ) else 0) none).PosSemidef := by
    have : eriMat (fun p q r s : Fin 2 => if p = r ∧ q = s then (2 : ℝ) else 0) none =
        Matrix.diagonal fun _ => 2 := by
      ext ⟨p, q⟩ ⟨r, s⟩
      simp [eriMat, Matrix.diagonal_apply, Prod.ext_iff]
    rw [this]
    exact Matrix.PosSemidef.diagonal fun _ => by norm_num
  choose U V s h using fun o => svd_exists (eriMat_psd _ hp o)
  exact ⟨U, V, s, hp, h⟩

end OpenMS.QmcIntegrals
