import Verif.Model.CholOrth
import Mathlib.LinearAlgebra.Matrix.Block
import Mathlib.LinearAlgebra.Matrix.Rank

/-!
# C168: Cholesky orthogonalisation of the basis
-/

namespace OpenMS.CholOrth

open Matrix

/-- What holds after each column. -/
structure Inv {N : ℕ} (S : Matrix (Fin N) (Fin N) ℝ) (tol : ℝ) (s : State N) : Prop where
  sym : ∀ a b, s.R a b = s.R b a
  sum : ∀ a b, S a b = s.R a b + ∑ m ∈ Finset.range s.k, s.vec m a * s.vec m b
  zero : ∀ i < s.k, ∀ a, s.R a (s.piv i) = 0
  inj : ∀ i < s.k, ∀ j < s.k, s.piv i = s.piv j → i = j
  upper : ∀ m < s.k, ∀ i < m, s.vec m (s.piv i) = 0
  diag : ∀ m < s.k, 0 < s.vec m (s.piv m)

theorem reach_inv {N : ℕ} {S : Matrix (Fin N) (Fin N) ℝ} {tol : ℝ} (ht : 0 ≤ tol) (hS : ∀ a b, S a b = S b a) {s : State N}
    (h : Reach S tol s) : Inv S tol s := by
  induction h with
  | start piv =>
    exact ⟨hS, fun a b => by simp [start], fun i hi => absurd hi (Nat.not_lt_zero _), fun i hi => absurd hi (Nat.not_lt_zero _),
      fun i hi => absurd hi (Nat.not_lt_zero _), fun i hi => absurd hi (Nat.not_lt_zero _)⟩
  | @next s p hs hp hstop ih =>
    have hpos : 0 < s.R p p := by
      unfold Stops at hstop
      by_cases h0 : s.k = 0
      · rw [if_pos h0] at hstop; exact not_le.1 hstop
      · rw [if_neg h0] at hstop; exact lt_of_le_of_lt ht (not_le.1 hstop)
    have hsq : 0 < √(s.R p p) := Real.sqrt_pos.2 hpos
    have hss : √(s.R p p) * √(s.R p p) = s.R p p := Real.mul_self_sqrt hpos.le
    have hcp : column s p p = √(s.R p p) := by
      unfold column
      rw [div_eq_iff hsq.ne', hss]
    have hci : ∀ i < s.k, column s p (s.piv i) = 0 := fun i hi => by
      unfold column
      rw [ih.sym, ih.zero i hi, zero_div]
    refine ⟨?_, ?_, ?_, ?_, ?_, ?_⟩
    · intro a b
      show s.R a b - column s p a * column s p b = s.R b a - column s p b * column s p a
      rw [ih.sym a b]; ring
    · intro a b
      show S a b = s.R a b - column s p a * column s p b +
        ∑ m ∈ Finset.range (s.k + 1), Function.update s.vec s.k (column s p) m a * Function.update s.vec s.k (column s p) m b
      rw [Finset.sum_range_succ, Function.update_self, ih.sum a b]
      have : ∑ m ∈ Finset.range s.k, Function.update s.vec s.k (column s p) m a * Function.update s.vec s.k (column s p) m b
          = ∑ m ∈ Finset.range s.k, s.vec m a * s.vec m b :=
        Finset.sum_congr rfl fun m hm => by
          rw [Function.update_of_ne (by have := Finset.mem_range.1 hm; omega)]
      rw [this]; ring
    · intro i hi a
      show s.R a (Function.update s.piv s.k p i) - column s p a * column s p (Function.update s.piv s.k p i) = 0
      by_cases hik : i = s.k
      · rw [hik, Function.update_self, hcp]
        unfold column
        rw [div_mul_cancel₀ _ hsq.ne', sub_self]
      · have hi' : i < s.k := by have : i < s.k + 1 := hi; omega
        rw [Function.update_of_ne hik, ih.zero i hi', hci i hi', mul_zero, sub_zero]
    · intro i hi j hj h
      have hi1 : i < s.k + 1 := hi
      have hj1 : j < s.k + 1 := hj
      have h : Function.update s.piv s.k p i = Function.update s.piv s.k p j := h
      by_cases hik : i = s.k <;> by_cases hjk : j = s.k
      · omega
      · rw [hik, Function.update_self, Function.update_of_ne hjk] at h
        exact absurd h.symm (hp.1 j (by omega))
      · rw [hjk, Function.update_self, Function.update_of_ne hik] at h
        exact absurd h (hp.1 i (by omega))
      · rw [Function.update_of_ne hik, Function.update_of_ne hjk] at h
        exact ih.inj i (by omega) j (by omega) h
    · intro m hm i hi
      have hm1 : m < s.k + 1 := hm
      show Function.update s.vec s.k (column s p) m (Function.update s.piv s.k p i) = 0
      rw [Function.update_of_ne (show i ≠ s.k by omega)]
      by_cases hmk : m = s.k
      · rw [hmk, Function.update_self]; exact hci i (by omega)
      · rw [Function.update_of_ne hmk]; exact ih.upper m (by omega) i hi
    · intro m hm
      have hm1 : m < s.k + 1 := hm
      show 0 < Function.update s.vec s.k (column s p) m (Function.update s.piv s.k p m)
      by_cases hmk : m = s.k
      · rw [hmk, Function.update_self, Function.update_self, hcp]; exact hsq
      · rw [Function.update_of_ne hmk, Function.update_of_ne hmk]; exact ih.diag m (by omega)

/-- **C168**: the factor and the selection satisfy `Pᵀ S P = L Lᵀ` with a lower triangular `L`, as assumed by `IsCholOrth`, and `L`
has a positive diagonal. -/
theorem factor_spec {N : ℕ} (S : Matrix (Fin N) (Fin N) ℝ) (tol : ℝ) (ht : 0 ≤ tol) (hS : ∀ a b, S a b = S b a) (s : State N)
    (h : Final S tol s) :
    OpenMS.ScQed.IsCholOrth S (factorL s) (selectP s) ∧ (∀ i, 0 < factorL s i i) ∧ (factorL s).det ≠ 0 := by
  have I := reach_inv ht hS h.1
  have hd : ∀ i, 0 < factorL s i i := fun i => by
    unfold factorL
    rw [if_neg (lt_irrefl _)]
    exact I.diag i i.2
  refine ⟨⟨?_, fun i j hij => if_pos hij, fun i => s.piv i, fun i j hij => Fin.ext (I.inj i i.2 j j.2 hij), fun a i => rfl⟩, hd, ?_⟩
  · ext i j
    have e1 : ((selectP s)ᵀ * S * selectP s) i j = S (s.piv i) (s.piv j) := by
      simp [Matrix.mul_apply, selectP]
    rw [e1, I.sum, I.zero j j.2, zero_add, Matrix.mul_apply, Finset.sum_range]
    apply Finset.sum_congr rfl
    intro m _
    have key : ∀ i : Fin s.k, factorL s i m = s.vec m (s.piv i) := fun i => by
      unfold factorL
      by_cases him : i < m
      · rw [if_pos him, I.upper m m.2 i him]
      · rw [if_neg him]
    rw [Matrix.transpose_apply, key, key]
  · have hlow : (factorL s).BlockTriangular OrderDual.toDual := fun i j hij => if_pos hij
    rw [Matrix.det_of_isLowerTriangular _ hlow]
    exact (Finset.prod_pos fun i _ => hd i).ne'

/-- **C168**: `X = P L⁻ᵀ` is orthonormal in the metric `S`. -/
theorem orthonormal {N : ℕ} (S : Matrix (Fin N) (Fin N) ℝ) (tol : ℝ) (ht : 0 ≤ tol) (hS : ∀ a b, S a b = S b a) (s : State N)
    (h : Final S tol s) :
    (selectP s * ((factorL s)⁻¹)ᵀ)ᵀ * S * (selectP s * ((factorL s)⁻¹)ᵀ) = 1 := by
  obtain ⟨h1, -, h3⟩ := factor_spec S tol ht hS s h
  have hu : IsUnit (factorL s).det := isUnit_iff_ne_zero.2 h3
  calc (selectP s * ((factorL s)⁻¹)ᵀ)ᵀ * S * (selectP s * ((factorL s)⁻¹)ᵀ)
      = (factorL s)⁻¹ * ((selectP s)ᵀ * S * selectP s) * ((factorL s)⁻¹)ᵀ := by
        rw [Matrix.transpose_mul, Matrix.transpose_transpose]; simp only [Matrix.mul_assoc]
    _ = ((factorL s)⁻¹ * factorL s) * ((factorL s)⁻¹ * factorL s)ᵀ := by
        rw [h1.factor, Matrix.transpose_mul]; simp only [Matrix.mul_assoc]
    _ = 1 := by rw [Matrix.nonsing_inv_mul _ hu]; simp

/-- **C168**: the number of functions that are kept is at most the rank of the overlap. -/
theorem kept_le_rank {N : ℕ} (S : Matrix (Fin N) (Fin N) ℝ) (tol : ℝ) (ht : 0 ≤ tol) (hS : ∀ a b, S a b = S b a) (s : State N)
    (h : Final S tol s) : s.k ≤ S.rank ∧ s.k ≤ N := by
  obtain ⟨h1, -, h3⟩ := factor_spec S tol ht hS s h
  have hu : IsUnit (factorL s * (factorL s)ᵀ) := by
    rw [Matrix.isUnit_iff_isUnit_det, Matrix.det_mul, Matrix.det_transpose]
    exact (isUnit_iff_ne_zero.2 h3).mul (isUnit_iff_ne_zero.2 h3)
  have e := Matrix.rank_of_isUnit _ hu
  rw [← h1.factor, Fintype.card_fin] at e
  have l1 := Matrix.rank_mul_le_left ((selectP s)ᵀ * S) (selectP s)
  have l2 := Matrix.rank_mul_le_right (selectP s)ᵀ S
  have l3 := Matrix.rank_le_card_width S
  rw [Fintype.card_fin] at l3
  omega

/-- **C168**: each basis function is, up to a squared length of at most the tolerance, a combination of the functions that are kept. -/
theorem span_spec {N : ℕ} (S : Matrix (Fin N) (Fin N) ℝ) (tol : ℝ) (ht : 0 ≤ tol) (hS : ∀ a b, S a b = S b a) (s : State N)
    (h : Final S tol s) (a : Fin N) :
    ∃ c : Fin s.k → ℝ, (Pi.single a 1 - selectP s *ᵥ c) ⬝ᵥ S *ᵥ (Pi.single a 1 - selectP s *ᵥ c) ≤ tol := by
  have I := reach_inv ht hS h.1
  obtain ⟨h1, -, h3⟩ := factor_spec S tol ht hS s h
  have hu : IsUnit (factorL s)ᵀ.det := by rw [Matrix.det_transpose]; exact isUnit_iff_ne_zero.2 h3
  have key : ∀ m i : Fin s.k, factorL s i m = s.vec m (s.piv i) := fun m i => by
    unfold factorL
    by_cases him : i < m
    · rw [if_pos him, I.upper m m.2 i him]
    · rw [if_neg him]
  obtain ⟨c, hc⟩ : ∃ c : Fin s.k → ℝ, (factorL s)ᵀ *ᵥ c = fun m : Fin s.k => s.vec m a :=
    ⟨((factorL s)ᵀ)⁻¹ *ᵥ fun m : Fin s.k => s.vec m a, by rw [Matrix.mulVec_mulVec, Matrix.mul_nonsing_inv _ hu, Matrix.one_mulVec]⟩
  refine ⟨c, ?_⟩
  obtain ⟨u, hu'⟩ : ∃ u : Fin N → ℝ, u = Pi.single a 1 - selectP s *ᵥ c := ⟨_, rfl⟩
  rw [← hu']
  have dot : ∀ f : Fin N → ℝ, ∑ b, f b * u b = f a - ∑ i : Fin s.k, f (s.piv i) * c i := by
    intro f
    have e2 : ∑ b, f b * (selectP s *ᵥ c) b = ∑ i : Fin s.k, f (s.piv i) * c i := by
      simp only [Matrix.mulVec, dotProduct, Finset.mul_sum]
      rw [Finset.sum_comm]
      apply Finset.sum_congr rfl
      intro i _
      simp [selectP]
    rw [hu']
    simp only [Pi.sub_apply, mul_sub, Finset.sum_sub_distrib]
    rw [e2]
    simp [Pi.single_apply]
  have v0 : ∀ m < s.k, ∑ b, s.vec m b * u b = 0 := by
    intro m hm
    rw [dot]
    have := congrFun hc ⟨m, hm⟩
    simp only [Matrix.mulVec, dotProduct, Matrix.transpose_apply, key] at this
    rw [this, sub_self]
  have r0 : ∀ b, ∑ d, s.R b d * u d = s.R b a := by
    intro b
    rw [dot]
    simp [I.zero _ (Fin.is_lt _)]
  have tot : u ⬝ᵥ S *ᵥ u = s.R a a := by
    have e1 : ∀ b, (S *ᵥ u) b = s.R b a := by
      intro b
      simp only [Matrix.mulVec, dotProduct]
      rw [Finset.sum_congr rfl fun d _ => by rw [I.sum b d, add_mul, Finset.sum_mul], Finset.sum_add_distrib, r0, Finset.sum_comm,
        Finset.sum_eq_zero, add_zero]
      intro m hm
      rw [Finset.sum_congr rfl fun d _ => mul_assoc _ _ _, ← Finset.mul_sum, v0 m (Finset.mem_range.1 hm), mul_zero]
    simp only [dotProduct, e1]
    rw [Finset.sum_congr rfl fun b _ => show u b * s.R b a = s.R a b * u b by rw [I.sym b a]; ring, r0]
  rw [tot]
  by_cases ha : ∃ i < s.k, s.piv i = a
  · obtain ⟨i, hi, rfl⟩ := ha
    rw [I.zero i hi]; exact ht
  · push Not at ha
    rcases h.2 with hk | ⟨p, hp, hstop⟩
    · exfalso
      have : Function.Injective fun i : Fin N => s.piv i := fun i j hij =>
        Fin.ext (I.inj i (by omega) j (by omega) hij)
      obtain ⟨i, hi⟩ := (Finite.injective_iff_surjective.1 this) a
      exact ha i (by omega) hi
    · refine (hp.2 a ha).trans ?_
      unfold Stops at hstop
      by_cases h0 : s.k = 0
      · rw [if_pos h0] at hstop; exact hstop.trans ht
      · rw [if_neg h0] at hstop; exact hstop

/-- **C168**: the factorisation always ends. -/
theorem final_exists {N : ℕ} (hN : 0 < N) (S : Matrix (Fin N) (Fin N) ℝ) (tol : ℝ) : ∃ s, Final S tol s := by
  by_contra hno
  push Not at hno
  have step : ∀ k, k ≤ N → ∃ s, Reach S tol s ∧ s.k = k := by
    intro k
    induction k with
    | zero => intro _; exact ⟨_, Reach.start fun _ => ⟨0, hN⟩, rfl⟩
    | succ k ih =>
      intro hk
      obtain ⟨s, hs, rfl⟩ := ih (by omega)
      have hfree : (Finset.univ.filter fun q : Fin N => ∀ i < s.k, s.piv i ≠ q).Nonempty := by
        by_contra hemp
        rw [Finset.not_nonempty_iff_eq_empty, Finset.filter_eq_empty_iff] at hemp
        have hsur : Function.Surjective fun i : Fin s.k => s.piv i := by
          intro q
          have := hemp (Finset.mem_univ q)
          push Not at this
          obtain ⟨i, hi, e⟩ := this
          exact ⟨⟨i, hi⟩, e⟩
        have := Fintype.card_le_of_surjective _ hsur
        simp at this
        omega
      obtain ⟨p, hp, hmax⟩ := Finset.exists_max_image _ (fun q => s.R q q) hfree
      have hpiv : IsPivot s p := ⟨(Finset.mem_filter.1 hp).2, fun q hq => hmax q (Finset.mem_filter.2 ⟨Finset.mem_univ _, hq⟩)⟩
      refine ⟨_, Reach.next p hs hpiv fun hst => hno s ⟨hs, Or.inr ⟨p, hpiv, hst⟩⟩, rfl⟩
  obtain ⟨s, hs, hk⟩ := step N le_rfl
  exact hno s ⟨hs, Or.inl hk⟩

/-- **C168**: the error is raised exactly if no basis function has a positive norm. -/
theorem raises_iff {N : ℕ} (hN : 0 < N) (S : Matrix (Fin N) (Fin N) ℝ) (tol : ℝ) (s : State N) (h : Final S tol s) :
    raises s ↔ ∀ a, S a a ≤ 0 := by
  unfold raises
  constructor
  · intro h0 a
    obtain ⟨h1, h2⟩ := h
    cases h1 with
    | start piv =>
      rcases h2 with h2 | ⟨p, hp, hst⟩
      · exfalso; have : (0 : ℕ) = N := h2; omega
      · have h3 : S p p ≤ 0 := by unfold Stops at hst; exact (if_pos (show (start S piv).k = 0 from rfl) ▸ hst :)
        exact (hp.2 a fun i hi => absurd hi (Nat.not_lt_zero _)).trans h3
    | next p _ _ _ => exact absurd h0 (Nat.succ_ne_zero _)
  · intro hall
    have key : ∀ s, Reach S tol s → s.k = 0 := by
      intro s hs
      induction hs with
      | start piv => rfl
      | @next s p hs hp hst ih =>
        exfalso
        apply hst
        unfold Stops
        rw [if_pos ih]
        cases hs with
        | start piv => exact hall p
        | next q _ _ _ => exact absurd ih (Nat.succ_ne_zero _)
    exact key s h.1

/-- **C168**: the matrix of `full_cholesky_decomposition` factorises the matrix, as documented, if there are as many vectors as rows. -/
theorem full_partial {N : ℕ} (S : Matrix (Fin N) (Fin N) ℝ) (tol : ℝ) (ht : 0 ≤ tol) (hS : ∀ a b, S a b = S b a) (s : State N)
    (h : Final S tol s) (hk : s.k = N) (perm : Equiv.Perm (Fin N)) (hp : ∀ i : Fin N, (i : ℕ) < s.k → perm i = s.piv i) :
    fullVectors S s perm * (fullVectors S s perm)ᵀ = fun i j => S (perm i) (perm j) := by
  have I := reach_inv ht hS h.1
  ext i j
  have key : ∀ i m : Fin N, fullVectors S s perm i m = s.vec m (s.piv i) := fun i m => by
    unfold fullVectors
    by_cases him : i < m
    · rw [if_pos him, I.upper m (by omega) i him]
    · rw [if_neg him, if_pos (by omega), hp i (by omega)]
  rw [Matrix.mul_apply, I.sum, hp j (by omega), I.zero j (by omega), zero_add, hk, Finset.sum_range]
  apply Finset.sum_congr rfl
  intro m _
  rw [Matrix.transpose_apply, key, key, hp i (by omega)]

/-- **C168**: it never does if the factorisation of an overlap of normalised functions ends early: the last columns are not zero. -/
theorem full_fails {N : ℕ} (S : Matrix (Fin N) (Fin N) ℝ) (tol : ℝ) (ht : 0 ≤ tol) (ht1 : tol < 1) (hS : ∀ a b, S a b = S b a)
    (hS1 : ∀ a, S a a = 1) (s : State N) (h : Final S tol s) (hk : s.k < N) (perm : Equiv.Perm (Fin N))
    (hp : ∀ i : Fin N, (i : ℕ) < s.k → perm i = s.piv i) :
    fullVectors S s perm * (fullVectors S s perm)ᵀ ≠ fun i j => S (perm i) (perm j) := by
  have I := reach_inv ht hS h.1
  intro he
  obtain ⟨r, hr⟩ : ∃ r : Fin N, (r : ℕ) = s.k := ⟨⟨s.k, hk⟩, rfl⟩
  have hrr := congrFun (congrFun he r) r
  rw [Matrix.mul_apply] at hrr
  simp only [Matrix.transpose_apply, hS1] at hrr
  have hfree : ∀ i < s.k, s.piv i ≠ perm r := by
    intro i hi e
    have e2 : perm ⟨i, by omega⟩ = perm r := by rw [hp ⟨i, by omega⟩ hi, e]
    have := congrArg Fin.val (perm.injective e2)
    simp only [hr] at this
    omega
  have hle : s.R (perm r) (perm r) ≤ tol := by
    rcases h.2 with h2 | ⟨p, hpv, hst⟩
    · omega
    · refine (hpv.2 _ hfree).trans ?_
      unfold Stops at hst
      by_cases h0 : s.k = 0
      · rw [if_pos h0] at hst; exact hst.trans ht
      · rw [if_neg h0] at hst; exact hst
  have hsum := I.sum (perm r) (perm r)
  rw [hS1] at hsum
  have hterm : ∀ j : Fin N, fullVectors S s perm r j * fullVectors S s perm r j =
      (if (j : ℕ) < s.k then s.vec j (perm r) * s.vec j (perm r) else 0) + if j = r then 1 else 0 := by
    intro j
    unfold fullVectors
    by_cases h1 : r < j
    · have h1' : (r : ℕ) < j := h1
      rw [if_pos h1, if_neg (by omega), if_neg (by rintro rfl; omega)]; ring
    · have h1' : ¬ (r : ℕ) < j := h1
      rw [if_neg h1]
      by_cases h2 : (j : ℕ) < s.k
      · rw [if_pos h2, if_pos h2, if_neg (by rintro rfl; omega)]; ring
      · have : j = r := Fin.ext (by omega)
        subst this
        rw [if_neg h2, if_neg h2, if_pos rfl, hS1]; ring
  have hsplit : ∑ j : Fin N, (if (j : ℕ) < s.k then s.vec j (perm r) * s.vec j (perm r) else 0)
      = ∑ m ∈ Finset.range s.k, s.vec m (perm r) * s.vec m (perm r) := by
    rw [← Finset.sum_range (fun j => if j < s.k then s.vec j (perm r) * s.vec j (perm r) else 0), ← Finset.sum_filter]
    apply Finset.sum_congr _ fun _ _ => rfl
    ext m
    simp
    omega
  rw [Finset.sum_congr rfl fun j _ => hterm j, Finset.sum_add_distrib, hsplit] at hrr
  simp at hrr
  simp only [← pow_two] at hsum hrr
  linarith

/-! ### Condition numbers -/

open ENNReal

theorem foldl_max_le (l : List ℝ≥0∞) (a : ℝ≥0∞) : a ≤ l.foldl max a ∧ ∀ x ∈ l, x ≤ l.foldl max a := by
  induction l generalizing a with
  | nil => simp
  | cons y l ih =>
    obtain ⟨h1, h2⟩ := ih (max a y)
    rw [List.foldl_cons]
    refine ⟨(le_max_left _ _).trans h1, fun x hx => ?_⟩
    rcases List.mem_cons.1 hx with rfl | hx
    · exact (le_max_right _ _).trans h1
    · exact h2 x hx

theorem foldl_max_lt (l : List ℝ≥0∞) (a b : ℝ≥0∞) : l.foldl max a < b ↔ a < b ∧ ∀ x ∈ l, x < b := by
  induction l generalizing a with
  | nil => simp
  | cons y l ih =>
    rw [List.foldl_cons, ih, max_lt_iff, List.forall_mem_cons, and_assoc]

/-- **C168**: with a `Boson` and no messages the solver is kept exactly if all condition numbers are below `1 / lindep`, and an
overlap that is singular in floating point gives the pivoted factorisation. -/
theorem lindep_partial (scond lindep eps : ℝ≥0∞) (g : ℝ≥0∞) (gs : List ℝ≥0∞) (hl : 1 / lindep ≤ 1 / eps) :
    (removeLinearDep scond (some (g :: gs)) lindep eps false false = .ok .unchanged ↔
      scond < 1 / lindep ∧ ∀ x ∈ g :: gs, x < 1 / lindep) ∧
    (removeLinearDep scond (some (g :: gs)) lindep eps false false = .ok .pivoted ↔
      1 / eps ≤ scond ∨ ∃ x ∈ g :: gs, 1 / eps ≤ x) ∧
    removeLinearDep scond (some (g :: gs)) lindep eps true false = .ok .pivoted := by
  have e0 : max 0 scond = scond := max_eq_right zero_le
  have f1 := foldl_max_lt (g :: gs) scond (1 / lindep)
  have f2 := foldl_max_lt (g :: gs) scond (1 / eps)
  unfold removeLinearDep
  dsimp only [Option.getD_some]
  rw [e0]
  obtain ⟨M, hM⟩ : ∃ M, M = (g :: gs).foldl max scond := ⟨_, rfl⟩
  rw [← hM] at f1 f2 ⊢
  generalize 1 / lindep = A at *
  generalize 1 / eps = B at *
  refine ⟨?_, ?_, ?_⟩
  · rw [← f1]
    by_cases h : M < A
    · simp [h]
    · by_cases h2 : M < B <;> simp [h, h2]
  · have : (B ≤ scond ∨ ∃ x ∈ g :: gs, B ≤ x) ↔ ¬ M < B := by
      rw [f2, not_and_or]
      push Not
      rfl
    rw [this]
    by_cases h : M < A
    · simp [h, lt_of_lt_of_le h hl]
    · by_cases h2 : M < B <;> simp [h, h2]
  · simp

/-- **C168**: a singular coupling matrix, as of a mode without coupling, replaces the solver for every overlap. -/
theorem coupling_fails (scond lindep eps : ℝ≥0∞) (gs gs' : List ℝ≥0∞) (hl : 1 / lindep ≤ 1 / eps) :
    removeLinearDep scond (some (gs ++ ⊤ :: gs')) lindep eps false false = .ok .pivoted := by
  obtain ⟨g, l, hg⟩ : ∃ g l, gs ++ ⊤ :: gs' = g :: l := by
    cases gs with
    | nil => exact ⟨_, _, rfl⟩
    | cons a l => exact ⟨_, _, rfl⟩
  have := (lindep_partial scond lindep eps g l hl).2.1
  rw [hg, this]
  exact Or.inr ⟨⊤, by rw [← hg]; simp, le_top⟩

/-- **C168**: without a `Boson` an overlap that needs another solver ends with a `NameError`. -/
theorem boson_fails (scond lindep eps : ℝ≥0∞) (force : Bool) (h : 1 / lindep ≤ scond) :
    removeLinearDep scond none lindep eps force false = .error .nameError := by
  unfold removeLinearDep
  have : ¬ scond < 1 / lindep := not_lt.2 h
  simp only [Option.getD_none, List.foldl_nil, max_eq_right (zero_le (a := scond))]
  rw [if_neg fun h => this h.1]
  rfl

/-- **C168**: with messages an overlap that needs another solver ends with a `TypeError`. -/
theorem debug_fails (scond lindep eps : ℝ≥0∞) (gconds : Option (List ℝ≥0∞)) (force : Bool) (hg : gconds ≠ some [])
    (h : 1 / lindep ≤ scond) : removeLinearDep scond gconds lindep eps force true = .error .typeError := by
  have key : ¬ ((gconds.getD []).foldl max (max 0 scond) < 1 / lindep ∧ force = false) := by
    rintro ⟨h1, -⟩
    have := (foldl_max_le (gconds.getD []) (max 0 scond)).1
    exact absurd (lt_of_le_of_lt ((le_max_right 0 scond).trans this) h1) (not_lt.2 h)
  unfold removeLinearDep
  dsimp only
  rw [if_neg key]
  cases gconds with
  | none => rfl
  | some l =>
    cases l with
    | nil => exact absurd rfl hg
    | cons a l => rfl

/-- Two equal functions: one of them is kept. -/
example : ∃ s : State 2, Final (fun _ _ => 1) (1 / 10000000) s ∧ s.k = 1 := by
  have h0 : Reach (fun _ _ => (1 : ℝ)) (1 / 10000000) (start (fun _ _ => 1) fun _ => (0 : Fin 2)) := Reach.start _
  have hp : IsPivot (start (fun _ _ => (1 : ℝ)) fun _ => (0 : Fin 2)) 0 := ⟨fun i hi => absurd hi (Nat.not_lt_zero _), fun _ _ => le_rfl⟩
  have h1 := Reach.next 0 h0 hp (by simp [Stops, start])
  refine ⟨_, ⟨h1, Or.inr ⟨1, ⟨fun i hi => ?_, fun q _ => ?_⟩, ?_⟩⟩, rfl⟩
  · have : i = 0 := Nat.lt_one_iff.1 hi
    subst this
    simp [next, start]
  · simp [next, start, column]
  · simp [Stops, next, start, column]

end OpenMS.CholOrth
