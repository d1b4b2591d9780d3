import Verif.Model.Gutzwiller
import Mathlib.Tactic
import Mathlib.LinearAlgebra.Matrix.Trace
import Mathlib.Analysis.Calculus.Deriv.Mul
import Mathlib.Analysis.Calculus.Deriv.Add

namespace OpenMS.Gutzwiller

open Matrix

variable {n : Type*} [Fintype n]

/-- Amplitudes of a normalised local state: not negative, and the weights of the four configurations
of a site add up to one. -/
structure Good (f : Amp n) : Prop where
  nonneg : ∀ a i, 0 ≤ f a i
  norm : ∀ i, f 0 i ^ 2 + 2 * f 1 i ^ 2 + f 2 i ^ 2 = 1

/-! ### Start -/

/-- Densities per spin give normalised amplitudes of that density; and nothing else is a number. -/
theorem init_iff (dm : Matrix n n ℝ) :
    (∃ f, initVarParams dm = some f ∧ Good f ∧ ∀ i, nf f i = dm i i) ↔
      ∀ i, 0 ≤ dm i i ∧ dm i i ≤ 1 := by
  constructor
  · rintro ⟨f, hf, -, -⟩ i
    unfold initVarParams at hf
    split_ifs at hf with h
    have := h i
    constructor <;> nlinarith
  · intro h
    have h' : ∀ i, 0 ≤ dm i i * (1 - dm i i) := fun i =>
      mul_nonneg (h i).1 (by linarith [(h i).2])
    refine ⟨_, if_pos h', ⟨?_, ?_⟩, ?_⟩
    · intro a i
      fin_cases a
      · simpa using (h i).2
      · simp
      · simpa using (h i).1
    · intro i
      simp only [Matrix.cons_val_zero, Matrix.cons_val_one, Matrix.cons_val]
      rw [Real.sq_sqrt (h' i)]
      ring
    · intro i
      simp only [nf, Matrix.cons_val_one, Matrix.cons_val]
      rw [Real.mul_self_sqrt (h' i)]
      ring

/-- A quarter of an electron per spin. -/
example : ∃ f, initVarParams !![(1 / 4 : ℝ)] = some f ∧ Good f ∧ ∀ i, nf f i = !![(1 / 4 : ℝ)] i i :=
  (init_iff _).2 fun i => by
    fin_cases i
    norm_num

theorem trace_makeRdm1 [DecidableEq n] {C : Matrix n n ℝ} (hC : Cᵀ * C = 1) (occ : Finset n) :
    ∑ i, makeRdm1 C occ i i = 2 * occ.card := by
  simp only [makeRdm1, of_apply]
  rw [Finset.sum_comm]
  have : ∀ k, ∑ i, C i k * 2 * C i k = 2 := by
    intro k
    have h := congrFun (congrFun hC k) k
    simp only [mul_apply, transpose_apply, one_apply_eq] at h
    calc ∑ i, C i k * 2 * C i k = 2 * ∑ i, C i k * C i k := by
          rw [Finset.mul_sum]
          exact Finset.sum_congr rfl fun i _ => by ring
      _ = 2 := by rw [h, mul_one]
  rw [Finset.sum_congr rfl fun k _ => this k, Finset.sum_const, nsmul_eq_mul, mul_comm]

/-- The kernel passes the density of both spins: above half filling the start is not a number,
whatever the orbitals are. -/
theorem init_fails [DecidableEq n] {C : Matrix n n ℝ} (hC : Cᵀ * C = 1) {occ : Finset n}
    (h : Fintype.card n < 2 * occ.card) : initVarParams (makeRdm1 C occ) = none := by
  unfold initVarParams
  rw [if_neg]
  intro hn
  have hle : ∀ i, makeRdm1 C occ i i ≤ 1 := fun i => by
    have := hn i
    nlinarith
  have := Finset.sum_le_sum fun i (_ : i ∈ Finset.univ) => hle i
  rw [trace_makeRdm1 hC] at this
  simp only [Finset.sum_const, Finset.card_univ, nsmul_eq_mul, mul_one] at this
  have h2 : (2 * occ.card : ℕ) ≤ Fintype.card n := by exact_mod_cast this
  omega

/-- Two electrons in one orbital. -/
example : initVarParams (makeRdm1 (1 : Matrix (Fin 1) (Fin 1) ℝ) Finset.univ) = none :=
  init_fails (by simp) (by simp)

/-! ### Renormalisation factors -/

omit [Fintype n] in
theorem eps_pos : 0 < EPS := by
  norm_num [EPS]

omit [Fintype n] in
/-- The factors lie between zero and one. -/
theorem renorm_mem {f : Amp n} (hf : ∀ a i, 0 ≤ f a i) (dm : Matrix n n ℝ) (i : n) :
    0 ≤ renorm f dm i ∧ renorm f dm i ≤ 1 := by
  unfold renorm
  split_ifs with h
  · norm_num
  · refine ⟨?_, not_lt.1 h⟩
    unfold rawR
    have := hf 0 i
    have := hf 1 i
    have := hf 2 i
    positivity

omit [Fintype n] in
/-- If the amplitudes have the density of the orbitals the factors are not cut. -/
theorem renorm_uncut {f : Amp n} (hf : Good f) {dm : Matrix n n ℝ} {i : n} (h : nf f i = dm i i) :
    renorm f dm i = rawR f dm i := by
  unfold renorm
  rw [if_neg]
  rw [not_lt]
  unfold rawR
  have h0 := hf.nonneg 0 i
  have h1 := hf.nonneg 1 i
  have h2 := hf.nonneg 2 i
  have hn := hf.norm i
  have e1 : dm i i = f 1 i ^ 2 + f 2 i ^ 2 := by rw [← h, nf]; ring
  have e2 : 1 - dm i i = f 0 i ^ 2 + f 1 i ^ 2 := by rw [e1]; linarith
  have hp : 0 < Real.sqrt (|dm i i * (1 - dm i i)| + EPS) :=
    Real.sqrt_pos.2 (add_pos_of_nonneg_of_pos (abs_nonneg _) eps_pos)
  rw [div_le_one hp]
  refine Real.le_sqrt_of_sq_le ?_
  have : (f 2 i * f 1 i + f 1 i * f 0 i) ^ 2 ≤ dm i i * (1 - dm i i) := by
    rw [e2, e1]
    nlinarith [sq_nonneg (f 1 i * f 1 i - f 2 i * f 0 i)]
  have := le_abs_self (dm i i * (1 - dm i i))
  have := eps_pos
  linarith

/-- Without correlation the factor is one up to the regularisation. -/
theorem renorm_start {dm : Matrix n n ℝ} {f : Amp n} (hf : initVarParams dm = some f) (i : n) :
    renorm f dm i = Real.sqrt (dm i i * (1 - dm i i)) / Real.sqrt (dm i i * (1 - dm i i) + EPS) := by
  unfold initVarParams at hf
  split_ifs at hf with h
  have hr : rawR f dm i =
      Real.sqrt (dm i i * (1 - dm i i)) / Real.sqrt (dm i i * (1 - dm i i) + EPS) := by
    rw [← Option.some.inj hf]
    simp only [rawR, Matrix.cons_val_zero, Matrix.cons_val_one, Matrix.cons_val]
    rw [abs_of_nonneg (h i)]
    congr 1
    ring
  unfold renorm
  rw [hr, if_neg]
  rw [not_lt]
  have hp : 0 < Real.sqrt (dm i i * (1 - dm i i) + EPS) :=
    Real.sqrt_pos.2 (add_pos_of_nonneg_of_pos (h i) eps_pos)
  rw [div_le_one hp]
  exact Real.sqrt_le_sqrt (by linarith [eps_pos])

/-! ### Local Hamiltonian -/

omit [Fintype n] in
/-- In the vector of the normalised local state the three matrices give the hopping amplitude, the
density per spin and the double occupancy. -/
theorem local_expect (f0 f1 f2 : ℝ) :
    let v := ![f0, Real.sqrt 2 * f1, f2]
    v ⬝ᵥ (Mpp *ᵥ v) = 4 * (f2 * f1 + f1 * f0) ∧ v ⬝ᵥ (Npp *ᵥ v) = f1 * f1 + f2 * f2 ∧
      v ⬝ᵥ (Upp *ᵥ v) = f2 * f2 := by
  have h2 : Real.sqrt 2 * Real.sqrt 2 = 2 := Real.mul_self_sqrt (by norm_num)
  refine ⟨?_, ?_, ?_⟩
  · simp [Mpp, Matrix.mulVec, dotProduct, Fin.sum_univ_three]
    linear_combination (2 * f0 * f1 + 2 * f1 * f2) * h2
  · simp [Npp, Matrix.mulVec, dotProduct, Fin.sum_univ_three]
    linear_combination (f1 * f1 * 0.5) * h2
  · simp [Upp, Matrix.mulVec, dotProduct, Fin.sum_univ_three]

omit [Fintype n] in
/-- A site that is empty or full has no local Hamiltonian. -/
theorem Hpp_isSome (U : n → ℝ) (rho : Matrix n n ℝ) (f : Amp n) (R Delta lam : n → ℝ) (i : n) :
    (Hpp U rho f R Delta lam i).isSome ↔ rho i i ≠ 0 ∧ rho i i ≠ 1 := by
  unfold Hpp
  split_ifs with h
  · simp only [Option.isSome_none, Bool.false_eq_true, false_iff, not_and_or, not_not]
    rcases mul_eq_zero.1 h with h | h
    · exact .inl h
    · exact .inr (by linarith)
  · simp only [Option.isSome_some, true_iff]
    constructor
    · intro e
      exact h (by rw [e, zero_mul])
    · intro e
      exact h (by rw [e, sub_self, mul_zero])

/-- Whatever the eigenvectors are, the new amplitudes are normalised. -/
theorem newf_norm {c : Matrix (Fin 3) (Fin 3) ℝ} (hc : cᵀ * c = 1) :
    newf c 0 ^ 2 + 2 * newf c 1 ^ 2 + newf c 2 ^ 2 = 1 := by
  have h : c * cᵀ = 1 := mul_eq_one_comm.1 hc
  have h0 := congrFun (congrFun h 0) 0
  simp only [mul_apply, transpose_apply, one_apply_eq, Fin.sum_univ_three] at h0
  simp only [newf, Matrix.cons_val_zero, Matrix.cons_val_one, Matrix.cons_val, div_pow]
  rw [Real.sq_sqrt (by norm_num)]
  linarith

omit [Fintype n] in
/-- Mixing keeps normalised amplitudes normalised. -/
theorem mixF_good {mix : ℝ} (h0 : 0 ≤ mix) (h1 : mix ≤ 1) {f : Amp n} (hf : Good f)
    {c : n → Matrix (Fin 3) (Fin 3) ℝ} (hc : ∀ i, (c i)ᵀ * c i = 1) :
    Good (mixF mix f fun a i => newf (c i) a) := by
  refine ⟨fun a i => Real.sqrt_nonneg _, fun i => ?_⟩
  have hp : ∀ a, 0 ≤ mix * (f a i * f a i) + (1 - mix) * (newf (c i) a * newf (c i) a) := by
    intro a
    have := mul_self_nonneg (f a i)
    have := mul_self_nonneg (newf (c i) a)
    have : 0 ≤ 1 - mix := by linarith
    positivity
  simp only [mixF]
  rw [Real.sq_sqrt (hp 0), Real.sq_sqrt (hp 1), Real.sq_sqrt (hp 2)]
  have e1 := hf.norm i
  have e2 := newf_norm (hc i)
  linear_combination mix * e1 + (1 - mix) * e2

/-! ### Which local state is taken -/

theorem eigh_col {H c : Matrix (Fin 3) (Fin 3) ℝ} {e : Fin 3 → ℝ} (h : Eigh H c e) (a k : Fin 3) :
    H a 0 * c 0 k + H a 1 * c 1 k + H a 2 * c 2 k = e k * c a k := by
  have := congrFun (congrFun h.eig a) k
  rw [Matrix.mul_diagonal] at this
  simp only [mul_apply, Fin.sum_univ_three] at this
  linarith

theorem eigh_orth {H c : Matrix (Fin 3) (Fin 3) ℝ} {e : Fin 3 → ℝ} (h : Eigh H c e) (k l : Fin 3) :
    c 0 k * c 0 l + c 1 k * c 1 l + c 2 k * c 2 l = if k = l then 1 else 0 := by
  have := congrFun (congrFun h.orth k) l
  simpa only [mul_apply, transpose_apply, Fin.sum_univ_three, one_apply] using this

/-- Half filling, `d` the hopping amplitude and `U` the interaction: the weight of the singly occupied
site taken by the code is that of the uncorrelated state for every interaction, while the weight in
the ground state is that only without interaction. -/
theorem ground_half_fails {d U : ℝ} (hd : d ≠ 0) {c : Matrix (Fin 3) (Fin 3) ℝ} {e : Fin 3 → ℝ}
    (h : Eigh (d • Mpp + (U • Upp + (-U) • Npp)) c e) :
    newf c 1 ^ 2 = 1 / 4 ∧ (c 1 0 ^ 2 / 2 = 1 / 4 ↔ U = 0) := by
  obtain ⟨s, hs⟩ : ∃ s, s = Real.sqrt 2 := ⟨_, rfl⟩
  have h2 : s * s = 2 := by rw [hs]; exact Real.mul_self_sqrt (by norm_num)
  have c0 : ∀ k, d * s * c 1 k = e k * c 0 k := fun k => by
    have := eigh_col h 0 k
    simp [Mpp, Npp, Upp, ← hs] at this
    linarith
  have c1 : ∀ k, d * s * (c 0 k + c 2 k) - U / 2 * c 1 k = e k * c 1 k := fun k => by
    have := eigh_col h 1 k
    simp [Mpp, Npp, Upp, ← hs] at this
    linarith
  have c2 : ∀ k, d * s * c 1 k = e k * c 2 k := fun k => by
    have := eigh_col h 2 k
    simp [Mpp, Npp, Upp, ← hs] at this
    linarith
  have hs0 : s ≠ 0 := by rintro rfl; norm_num at h2
  have hds : d * s ≠ 0 := mul_ne_zero hd hs0
  have hds2 : (d * s) * (d * s) = 2 * d ^ 2 := by linear_combination d ^ 2 * h2
  have hd2 : 0 < d ^ 2 := by positivity
  -- columns of eigenvalue zero and of the others
  have z : ∀ k, e k = 0 → c 1 k = 0 ∧ c 2 k = -c 0 k := fun k hk => by
    have a := c0 k
    rw [hk, zero_mul] at a
    have a1 : c 1 k = 0 := (mul_eq_zero.1 a).resolve_left hds
    have b := c1 k
    rw [hk, a1] at b
    have : c 0 k + c 2 k = 0 := (mul_eq_zero.1 (by linarith : d * s * (c 0 k + c 2 k) = 0)).resolve_left hds
    exact ⟨a1, by linarith⟩
  have w : ∀ k, e k ≠ 0 → c 2 k = c 0 k := fun k hk =>
    mul_left_cancel₀ hk (by rw [← c0, ← c2])
  have nz : ∀ k, c 0 k ≠ 0 := fun k h0 => by
    have a := c0 k
    rw [h0, mul_zero] at a
    have a1 : c 1 k = 0 := (mul_eq_zero.1 a).resolve_left hds
    have b := c1 k
    rw [h0, a1] at b
    have a2 : c 2 k = 0 := (mul_eq_zero.1 (by linarith : d * s * c 2 k = 0)).resolve_left hds
    have := eigh_orth h k k
    rw [h0, a1, a2] at this
    simp at this
  have zz : ∀ k l, k ≠ l → e k = 0 → e l ≠ 0 := fun k l hkl hk hl => by
    have := eigh_orth h k l
    rw [if_neg hkl, (z k hk).1, (z k hk).2, (z l hl).2] at this
    exact mul_ne_zero (nz k) (nz l) (by linarith)
  have ww : ∀ k l, k ≠ l → e k ≠ 0 → e l ≠ 0 → e k * e l < 0 := fun k l hkl hk hl => by
    have := eigh_orth h k l
    rw [if_neg hkl, w k hk, w l hl] at this
    have q : c 0 k * c 0 l * (4 * d ^ 2 + e k * e l) = 0 := by
      linear_combination (2 * d ^ 2) * this + c 1 k * c 1 l * hds2 - (d * s * c 1 l) * c0 k
        - (e k * c 0 k) * c0 l
    have := (mul_eq_zero.1 q).resolve_left (mul_ne_zero (nz k) (nz l))
    linarith
  have m01 : e 0 ≤ e 1 := h.asc (by decide)
  have m12 : e 1 ≤ e 2 := h.asc (by decide)
  have e1 : e 1 = 0 := by
    by_contra h1
    by_cases h0 : e 0 = 0
    · have := ww 1 2 (by decide) h1 (zz 0 2 (by decide) h0)
      nlinarith
    · have a := ww 0 1 (by decide) h0 h1
      by_cases h2 : e 2 = 0
      · nlinarith
      · have b := ww 1 2 (by decide) h1 h2
        have : 0 < e 1 := by
          by_contra hh
          nlinarith
        nlinarith
  have e0 : e 0 ≠ 0 := zz 1 0 (by decide) e1
  constructor
  · have := eigh_orth h 1 1
    rw [if_pos rfl, (z 1 e1).1, (z 1 e1).2] at this
    simp only [newf, Matrix.cons_val_one, Matrix.cons_val_zero, div_pow]
    rw [Real.sq_sqrt (by norm_num)]
    linarith
  · have n0 := eigh_orth h 0 0
    rw [if_pos rfl, w 0 e0] at n0
    have a := c0 0
    have b := c1 0
    rw [w 0 e0] at b
    have b1 : c 1 0 ≠ 0 := fun hb => by
      rw [hb, mul_zero] at a
      exact mul_ne_zero e0 (nz 0) a.symm
    have key : c 1 0 ^ 2 - 2 * c 0 0 ^ 2 = -(U / (2 * (d * s))) * (c 0 0 * c 1 0) := by
      have : d * s * (c 1 0 ^ 2 - 2 * c 0 0 ^ 2) = -(U / 2) * (c 0 0 * c 1 0) := by
        linear_combination c 1 0 * a - c 0 0 * b
      field_simp
      linear_combination 2 * this
    constructor
    · intro hh
      have : c 1 0 ^ 2 - 2 * c 0 0 ^ 2 = 0 := by linarith
      rw [this] at key
      have := (mul_eq_zero.1 key.symm).resolve_right (mul_ne_zero (nz 0) b1)
      have h3 : U / (2 * (d * s)) = 0 := by linarith
      rcases div_eq_zero_iff.1 h3 with h3 | h3
      · exact h3
      · exact absurd h3 (mul_ne_zero two_ne_zero hds)
    · intro hU
      rw [hU] at key
      simp at key
      linarith

/-- Hopping amplitude one, interaction six. -/
example : ∃ c e, Eigh ((1 : ℝ) • Mpp + ((6 : ℝ) • Upp + (-6 : ℝ) • Npp)) c e := by
  obtain ⟨s, hs⟩ : ∃ s, s = Real.sqrt 2 := ⟨_, rfl⟩
  have h2 : s * s = 2 := by rw [hs]; exact Real.mul_self_sqrt (by norm_num)
  obtain ⟨x, hx⟩ : ∃ x : ℝ, x * x = 1 / 5 := ⟨Real.sqrt (1 / 5), Real.mul_self_sqrt (by norm_num)⟩
  refine ⟨!![x * s / 2, s / 2, x * s; -2 * x, 0, x; x * s / 2, -s / 2, x * s], ![-4, 0, 1], ?_, ?_, ?_⟩
  · ext i j
    fin_cases i <;> fin_cases j <;> simp [mul_apply, Fin.sum_univ_three] <;>
      first
        | linear_combination (x * x / 2) * h2 + 5 * hx
        | linear_combination (1 / 2) * h2
        | linear_combination (x * x * 2) * h2 + 5 * hx
        | linear_combination (x * x) * h2
        | ring1
  · ext i j
    rw [Matrix.mul_diagonal]
    fin_cases i <;> fin_cases j <;> simp [mul_apply, Fin.sum_univ_three, Mpp, Upp, Npp, ← hs] <;>
      first
        | ring1
        | linear_combination x * h2
        | linear_combination (2 * x) * h2
  · intro i j hij
    fin_cases i <;> fin_cases j <;> first | (exfalso; revert hij; decide) | norm_num

/-- No hopping, repulsion `U` between the chemical potential `μ` and half of it: the code takes the
doubly occupied site, the ground state is the singly occupied site. -/
theorem ground_fails {μ U : ℝ} (h1 : μ / 2 < U) (h2 : U < μ) {c : Matrix (Fin 3) (Fin 3) ℝ}
    {e : Fin 3 → ℝ} (h : Eigh (U • Upp + (-μ) • Npp) c e) :
    newf c 2 ^ 2 = 1 ∧ c 1 0 ^ 2 = 1 ∧ c 2 0 = 0 := by
  have c0 : ∀ k, e k * c 0 k = 0 := fun k => by
    have := eigh_col h 0 k
    simp [Npp, Upp] at this
    exact (mul_eq_zero.2 this)
  have c1 : ∀ k, (e k + μ / 2) * c 1 k = 0 := fun k => by
    have := eigh_col h 1 k
    simp [Npp, Upp] at this
    linarith
  have c2 : ∀ k, (e k - (U - μ)) * c 2 k = 0 := fun k => by
    have := eigh_col h 2 k
    simp only [Npp, Upp, Matrix.add_apply, Matrix.smul_apply, smul_eq_mul] at this
    simp at this
    rcases this with this | this
    · rw [← this]; ring
    · rw [this, mul_zero]
  have col : ∀ k, (e k = 0 ∧ c 0 k ^ 2 = 1 ∧ c 1 k = 0 ∧ c 2 k = 0) ∨
      (e k = -μ / 2 ∧ c 0 k = 0 ∧ c 1 k ^ 2 = 1 ∧ c 2 k = 0) ∨
      (e k = U - μ ∧ c 0 k = 0 ∧ c 1 k = 0 ∧ c 2 k ^ 2 = 1) := fun k => by
    have o := eigh_orth h k k
    rw [if_pos rfl] at o
    rcases mul_eq_zero.1 (c0 k) with a | a <;> rcases mul_eq_zero.1 (c1 k) with b | b <;>
      rcases mul_eq_zero.1 (c2 k) with d | d
    all_goals try (exfalso; linarith)
    · exact .inl ⟨a, by rw [b, d] at o; linarith, b, d⟩
    · exact .inr (.inl ⟨by linarith, a, by rw [a, d] at o; linarith, d⟩)
    · exact .inr (.inr ⟨by linarith, a, b, by rw [a, b] at o; linarith⟩)
    · rw [a, b, d] at o
      norm_num at o
  have dis : ∀ k l, k ≠ l → e k ≠ e l := fun k l hkl he => by
    have o := eigh_orth h k l
    rw [if_neg hkl] at o
    rcases col k with ⟨a, b, p, q⟩ | ⟨a, b, p, q⟩ | ⟨a, b, p, q⟩ <;>
      rcases col l with ⟨a', b', p', q'⟩ | ⟨a', b', p', q'⟩ | ⟨a', b', p', q'⟩
    all_goals try (exfalso; linarith)
    · rw [p, q] at o
      have z : c 0 k * c 0 l = 0 := by linarith
      have w : (c 0 k * c 0 l) ^ 2 = 1 := by rw [mul_pow, b, b', one_mul]
      rw [z] at w
      norm_num at w
    · rw [b, q] at o
      have z : c 1 k * c 1 l = 0 := by linarith
      have w : (c 1 k * c 1 l) ^ 2 = 1 := by rw [mul_pow, p, p', one_mul]
      rw [z] at w
      norm_num at w
    · rw [b, p] at o
      have z : c 2 k * c 2 l = 0 := by linarith
      have w : (c 2 k * c 2 l) ^ 2 = 1 := by rw [mul_pow, q, q', one_mul]
      rw [z] at w
      norm_num at w
  have m01 : e 0 < e 1 := lt_of_le_of_ne (h.asc (by decide)) (dis 0 1 (by decide))
  have m12 : e 1 < e 2 := lt_of_le_of_ne (h.asc (by decide)) (dis 1 2 (by decide))
  have n2 : newf c 2 = c 0 2 := rfl
  rcases col 0 with ⟨a, b, p, q⟩ | ⟨a, b, p, q⟩ | ⟨a, b, p, q⟩ <;>
    rcases col 1 with ⟨a', -, -, -⟩ | ⟨a', -, -, -⟩ | ⟨a', -, -, -⟩ <;>
      rcases col 2 with ⟨a'', b'', p'', q''⟩ | ⟨a'', b'', p'', q''⟩ | ⟨a'', b'', p'', q''⟩
  all_goals try (exfalso; linarith)
  exact ⟨by rw [n2, b''], p, q⟩

example : ∃ c e, Eigh ((1 : ℝ) • Upp + (-(3 / 2) : ℝ) • Npp) c e := by
  refine ⟨!![0, 0, 1; 1, 0, 0; 0, 1, 0], ![-3 / 4, -1 / 2, 0], ?_, ?_, ?_⟩
  · ext i j
    fin_cases i <;> fin_cases j <;> simp [mul_apply, Fin.sum_univ_three]
  · ext i j
    rw [Matrix.mul_diagonal]
    fin_cases i <;> fin_cases j <;> simp [mul_apply, Fin.sum_univ_three, Upp, Npp] <;> norm_num
  · intro i j hij
    fin_cases i <;> fin_cases j <;> first | (exfalso; revert hij; decide) | norm_num

/-! ### Coupling to the lattice -/

/-- Energy of the quasiparticles. -/
noncomputable def qpEnergy (h : Matrix n n ℝ) (R lam : n → ℝ) (dm : Matrix n n ℝ) : ℝ :=
  (qpHam h R lam * dm).trace

/-- The quantity of the documentation, `Σ_J t_IJ R_J ρ_IJ`. -/
def docDelta (h dm : Matrix n n ℝ) (R : n → ℝ) (i : n) : ℝ := ∑ j, h i j * R j * dm i j

omit [Fintype n] in
theorem qpHam_symm {h : Matrix n n ℝ} (hh : hᵀ = h) (R lam : n → ℝ) :
    (qpHam h R lam)ᵀ = qpHam h R lam := by
  classical
  ext i j
  have : h j i = h i j := congrFun (congrFun hh i) j
  by_cases hij : i = j
  · subst hij; rfl
  · simp [qpHam, hij, Ne.symm hij, this, mul_comm]

omit [Fintype n] in
theorem qpHam_one (h : Matrix n n ℝ) : qpHam h 1 0 = h := by
  ext i j
  simp [qpHam]

theorem qpEnergy_eq (h : Matrix n n ℝ) (R lam : n → ℝ) (dm : Matrix n n ℝ) :
    qpEnergy h R lam dm = ∑ i, lam i * dm i i + ∑ i, ∑ j, R i * R j * h i j * dm j i := by
  classical
  simp only [qpEnergy, trace, diag_apply, mul_apply, qpHam, Matrix.add_apply, of_apply, add_mul,
    Finset.sum_add_distrib]
  congr 1
  refine Finset.sum_congr rfl fun i _ => ?_
  rw [Finset.sum_eq_single i]
  · simp
  · intro j _ hj
    simp [Ne.symm hj]
  · simp

/-- The quantity of the documentation is half the derivative of the energy of the quasiparticles with
respect to the renormalisation of the site. -/
theorem docDelta_deriv [DecidableEq n] {h dm : Matrix n n ℝ} (hh : hᵀ = h) (hd : dmᵀ = dm)
    (R lam : n → ℝ) (i : n) :
    HasDerivAt (fun t => qpEnergy h (Function.update R i t) lam dm) (2 * docDelta h dm R i) (R i) := by
  have hupd : ∀ j, HasDerivAt (fun t => Function.update R i t j) (if j = i then 1 else 0) (R i) := by
    intro j
    by_cases hj : j = i
    · subst hj
      simp only [Function.update_self, if_true]
      exact hasDerivAt_id' (R j)
    · simpa [Function.update_of_ne hj, hj] using hasDerivAt_const (R i) (R j)
  have := HasDerivAt.fun_sum (u := Finset.univ) fun (a : n) _ =>
    HasDerivAt.fun_sum (u := Finset.univ) fun (b : n) _ =>
      (((hupd a).mul (hupd b)).mul_const (h a b)).mul_const (dm b a)
  have := (hasDerivAt_const (R i) (∑ j, lam j * dm j j)).add this
  simp only [qpEnergy_eq]
  refine this.congr_deriv ?_
  have e1 : ∀ a b, h b a = h a b := fun a b => congrFun (congrFun hh a) b
  have e2 : ∀ a b, dm b a = dm a b := fun a b => congrFun (congrFun hd a) b
  simp only [Function.update_eq_self, add_mul, ite_mul, mul_ite, one_mul, zero_mul, mul_one,
    mul_zero, Finset.sum_add_distrib, Finset.sum_ite_eq', Finset.mem_univ, if_true, zero_add]
  rw [Finset.sum_comm]
  simp only [Finset.sum_ite_eq', Finset.mem_univ, if_true, docDelta, two_mul]
  congr 1
  · exact Finset.sum_congr rfl fun j _ => by rw [e2 i j]; ring
  · exact Finset.sum_congr rfl fun j _ => by rw [e1 i j]; ring

/-- The code agrees with it where the renormalisation is the same on all sites joined to the site. -/
theorem deltas_partial {h dm : Matrix n n ℝ} (hd : dmᵀ = dm) {R : n → ℝ} {i : n}
    (hR : ∀ j, h i j ≠ 0 → R j = R i) : deltas h dm R i = docDelta h dm R i := by
  unfold deltas docDelta
  rw [Finset.sum_mul]
  refine Finset.sum_congr rfl fun j _ => ?_
  have : dm j i = dm i j := congrFun (congrFun hd i) j
  by_cases hj : h i j = 0
  · simp [hj]
  · rw [hR j hj, this]; ring

/-- The code takes the factor of the site itself: on two sites the values differ whenever the two
factors do. -/
theorem deltas_fails {t p : ℝ} (ht : t ≠ 0) (hp : p ≠ 0) (a b : ℝ) {R : Fin 2 → ℝ} (hR : R 0 ≠ R 1) :
    deltas !![0, t; t, 0] !![a, p; p, b] R 0 ≠ docDelta !![0, t; t, 0] !![a, p; p, b] R 0 := by
  simp only [deltas, docDelta, Fin.sum_univ_two]
  simp
  intro h
  have : t * p * (R 0 - R 1) = 0 := by linarith
  exact mul_ne_zero (mul_ne_zero ht hp) (sub_ne_zero.2 hR) this

theorem lamdaErr_zero [Nonempty n] (rho : Matrix n n ℝ) (f : Amp n) :
    lamdaErr rho f = 0 ↔ ∀ i, rho i i = nf f i := by
  unfold lamdaErr
  rw [div_eq_zero_iff, or_iff_left (by simp), Finset.sum_eq_zero_iff_of_nonneg fun i _ => abs_nonneg _]
  simp [sub_eq_zero]

omit [Fintype n] in
/-- With equal densities the multipliers stay; a multiplier that stays has equal densities or no
renormalised hopping. -/
theorem newLamda_fix (rho : Matrix n n ℝ) (f : Amp n) (R lam : n → ℝ) (i : n) :
    newLamda rho f R lam i = lam i ↔ rho i i = nf f i ∨ R i = 0 := by
  unfold newLamda
  rw [add_eq_left, mul_eq_zero, sub_eq_zero]

/-! ### Whole runs -/

theorem cycle_some {h : Matrix n n ℝ} {U : n → ℝ} {mix tol tolGrad : ℝ} {o : Oracle n} {s t : State n}
    (hs : cycle h U mix tol tolGrad o s = some t) :
    t.f = mixF mix s.f (fun a i => newf (o.c i) a) ∧ t.R = renorm s.f s.dm ∧ t.eTot = s.eTot ∧
      (s.conv = true → t.conv = true) := by
  unfold cycle at hs
  simp only at hs
  split_ifs at hs
  rw [← Option.some.inj hs]
  refine ⟨rfl, rfl, rfl, ?_⟩
  intro hc
  simp [hc]

/-- Along every run the amplitudes stay normalised and not negative and the renormalisation factors
stay between zero and one. -/
theorem run_good {h : Matrix n n ℝ} {U : n → ℝ} {mix tol tolGrad : ℝ} (h0 : 0 ≤ mix) (h1 : mix ≤ 1)
    (os : List (Oracle n)) (hos : ∀ o ∈ os, ∀ i, (o.c i)ᵀ * o.c i = 1) {s t : State n}
    (hf : Good s.f) (hR : ∀ i, 0 ≤ s.R i ∧ s.R i ≤ 1) (ht : loop h U mix tol tolGrad os s = some t) :
    Good t.f ∧ ∀ i, 0 ≤ t.R i ∧ t.R i ≤ 1 := by
  induction os generalizing s with
  | nil =>
    rw [loop, Option.some.injEq] at ht
    rw [← ht]
    exact ⟨hf, hR⟩
  | cons o os ih =>
    rw [loop, Option.bind_eq_some_iff] at ht
    obtain ⟨u, hu, ht⟩ := ht
    obtain ⟨a, b, -, -⟩ := cycle_some hu
    refine ih (fun o ho => hos o (List.mem_cons_of_mem _ ho)) ?_ ?_ ht
    · rw [a]
      exact mixF_good h0 h1 hf (hos o List.mem_cons_self)
    · intro i
      rw [b]
      exact renorm_mem hf.nonneg _ i

/-- The energy that is returned is zero for every system, and there is none without a cycle. -/
theorem kernel_energy_fails {h : Matrix n n ℝ} {U : n → ℝ} {mix tol tolGrad : ℝ}
    {R lam : Option (n → ℝ)} {dm : Matrix n n ℝ} {os : List (Oracle n)} {r : Bool × ℝ}
    (hr : kernel h U mix tol tolGrad R lam dm os = some r) : r.2 = 0 ∧ os ≠ [] := by
  have key : ∀ (os : List (Oracle n)) (s t : State n), loop h U mix tol tolGrad os s = some t →
      t.eTot = s.eTot := by
    intro os
    induction os with
    | nil =>
      intro s t ht
      rw [loop, Option.some.injEq] at ht
      rw [ht]
    | cons o os ih =>
      intro s t ht
      rw [loop, Option.bind_eq_some_iff] at ht
      obtain ⟨u, hu, ht⟩ := ht
      rw [ih u t ht, (cycle_some hu).2.2.1]
  unfold kernel at hr
  split at hr
  · cases hr
  · split at hr
    · cases hr
    · next hne =>
      rw [Option.map_eq_some_iff] at hr
      obtain ⟨t, ht, rfl⟩ := hr
      exact ⟨key _ _ _ ht, fun hh => hne hh⟩

/-- A run of one cycle on one site. -/
example : ∃ r, kernel (n := Fin 1) 0 1 0.7 1e-9 1e-6 none none !![1 / 2] [⟨!![1 / 2], 1⟩] = some r := by
  have h1 : ∀ i : Fin 1, 0 ≤ (!![1 / 2] : Matrix (Fin 1) (Fin 1) ℝ) i i *
      (1 - (!![1 / 2] : Matrix (Fin 1) (Fin 1) ℝ) i i) := by
    intro i
    fin_cases i
    norm_num
  refine Option.isSome_iff_exists.1 ?_
  unfold kernel initVarParams
  rw [if_pos h1]
  simp only [loop, cycle]
  rw [if_pos]
  · rfl
  · intro i
    rw [Hpp_isSome]
    fin_cases i
    norm_num

/-- Once convergence has been seen it is reported, whatever the later cycles do. -/
theorem conv_sticky {h : Matrix n n ℝ} {U : n → ℝ} {mix tol tolGrad : ℝ} (os : List (Oracle n))
    {s t : State n} (hs : s.conv = true) (ht : loop h U mix tol tolGrad os s = some t) :
    t.conv = true := by
  induction os generalizing s with
  | nil =>
    rw [loop, Option.some.injEq] at ht
    rw [← ht, hs]
  | cons o os ih =>
    rw [loop, Option.bind_eq_some_iff] at ht
    obtain ⟨u, hu, ht⟩ := ht
    exact ih ((cycle_some hu).2.2.2 hs) ht

end OpenMS.Gutzwiller
