import Verif.Model.Kernels
import Mathlib.Tactic

/-!
# C150: the compiled kernels
-/

set_option linter.unusedSectionVars false

namespace OpenMS.Kernels

open Matrix

variable {𝕜 : Type*} [Field 𝕜]

theorem osum_succ (n : ℕ) (f : ℕ → Option 𝕜) :
    osum (n + 1) f = (osum n f).bind fun a => (f n).map fun b => a + b := by
  simp [osum, List.range_succ]

theorem osum_some {n : ℕ} {f : ℕ → Option 𝕜} {g : Fin n → 𝕜} (h : ∀ k : Fin n, f k = some (g k)) :
    osum n f = some (∑ k, g k) := by
  induction n with
  | zero => simp [osum]
  | succ n ih =>
    rw [osum_succ, ih (g := fun k => g k.castSucc) fun k => h k.castSucc, Fin.sum_univ_castSucc]
    have := h (Fin.last n)
    simp only [Fin.val_last] at this
    rw [this]; rfl

theorem osum_none {n : ℕ} {f : ℕ → Option 𝕜} {k : ℕ} (hk : k < n) (h : f k = none) : osum n f = none := by
  induction n with
  | zero => omega
  | succ n ih =>
    rw [osum_succ]
    rcases Nat.lt_succ_iff_lt_or_eq.1 hk with hk | rfl
    · rw [ih hk]; rfl
    · rw [h]; cases osum k f <;> rfl

/-- The memory holds the matrix. -/
def Holds {b c : ℕ} (p : Ptr 𝕜) (f : Matrix (Fin b) (Fin c) 𝕜) : Prop := ∀ (i : Fin b) (j : Fin c), p (i * c + j) = some (f i j)

theorem pos_lt {b c : ℕ} (i : Fin b) (j : Fin c) : (i : ℕ) * c + j < b * c := by
  have := i.2; have := j.2
  calc (i : ℕ) * c + j < i * c + c := by omega
    _ = (i + 1) * c := by ring
    _ ≤ b * c := Nat.mul_le_mul_right _ (by omega)

theorem pos_div {b c : ℕ} (i : Fin b) (j : Fin c) : ((i : ℕ) * c + j) / c = i := by
  rw [Nat.mul_comm, Nat.mul_add_div (by have := j.2; omega), Nat.div_eq_of_lt j.2, Nat.add_zero]

theorem pos_mod {b c : ℕ} (i : Fin b) (j : Fin c) : ((i : ℕ) * c + j) % c = j := by
  rw [Nat.mul_comm, Nat.mul_add_mod, Nat.mod_eq_of_lt j.2]

theorem holds_flat2 {b c : ℕ} (f : Matrix (Fin b) (Fin c) 𝕜) : Holds (flat2 f) f := by
  intro i j
  unfold flat2
  rw [dif_pos (pos_lt i j)]
  congr 1
  have h1 : (⟨((i : ℕ) * c + j) / c, Nat.div_lt_of_lt_mul (by rw [Nat.mul_comm c b]; exact pos_lt i j)⟩ : Fin b) = i :=
    Fin.ext (pos_div i j)
  have h2 : ∀ h, (⟨((i : ℕ) * c + j) % c, h⟩ : Fin c) = j := fun h => Fin.ext (pos_mod i j)
  rw [h1, h2]

theorem eq_flat2 {b c : ℕ} {p : Ptr 𝕜} {f : Matrix (Fin b) (Fin c) 𝕜} (h : Holds p f) (ho : ∀ x, b * c ≤ x → p x = none) : p = flat2 f := by
  funext x
  by_cases hx : x < b * c
  · have hc : 0 < c := Nat.pos_of_ne_zero fun h0 => by simp [h0] at hx
    have hi : x / c < b := Nat.div_lt_of_lt_mul (by rwa [Nat.mul_comm])
    have hj : x % c < c := Nat.mod_lt _ hc
    have e : x / c * c + x % c = x := Nat.div_add_mod' x c
    have h1 := h ⟨x / c, hi⟩ ⟨x % c, hj⟩
    have h2 := holds_flat2 f ⟨x / c, hi⟩ ⟨x % c, hj⟩
    simp only [e] at h1 h2
    rw [h1, h2]
  · rw [ho x (by omega)]
    unfold flat2
    rw [dif_neg hx]

theorem perWalker_congr {nw sz : ℕ} {f g : Fin nw → Ptr 𝕜} (h : ∀ z, ∀ y < sz, f z y = g z y) :
    perWalker sz f = perWalker sz g := by
  funext x
  unfold perWalker
  by_cases hx : x < nw * sz
  · rw [dif_pos hx, dif_pos hx]
    exact h _ _ (Nat.mod_lt _ (Nat.pos_of_ne_zero fun h0 => by simp [h0] at hx))
  · rw [dif_neg hx, dif_neg hx]

theorem perWalker_at {nw sz : ℕ} (f : Fin nw → Ptr 𝕜) (z : Fin nw) {y : ℕ} (hy : y < sz) :
    perWalker sz f (z * sz + y) = f z y := by
  unfold perWalker
  have h := pos_lt z (⟨y, hy⟩ : Fin sz)
  rw [dif_pos h]
  have h1 : ∀ hh, (⟨((z : ℕ) * sz + y) / sz, hh⟩ : Fin nw) = z := fun hh => Fin.ext (pos_div z (⟨y, hy⟩ : Fin sz))
  rw [h1, pos_mod z (⟨y, hy⟩ : Fin sz)]

/-- The block of one walker. -/
theorem holds_shift {a b c : ℕ} (f : Fin a → Matrix (Fin b) (Fin c) 𝕜) (z : Fin a) : Holds ((flat3 f).shift (z * (b * c))) (f z) := by
  intro i j
  unfold Ptr.shift flat3
  rw [perWalker_at _ z (pos_lt i j)]
  exact holds_flat2 (f z) i j

theorem gemm_plain {m n k : ℕ} {A B : Ptr 𝕜} {a : Matrix (Fin m) (Fin k) 𝕜} {b : Matrix (Fin k) (Fin n) 𝕜} (hA : Holds A a)
    (hB : Holds B b) : gemm false m n k A k B n = flat2 (a * b) := by
  apply eq_flat2
  · intro i j
    unfold gemm
    rw [if_pos (pos_lt i j), pos_div, pos_mod, Matrix.mul_apply]
    apply osum_some
    intro l
    rw [hB l j]
    simp only [Bool.false_eq_true, if_false]
    rw [hA i l]; rfl
  · intro x hx
    unfold gemm
    rw [if_neg (by omega)]

theorem gemm_trans {m n k : ℕ} {A B : Ptr 𝕜} {a : Matrix (Fin k) (Fin m) 𝕜} {b : Matrix (Fin k) (Fin n) 𝕜} (hA : Holds A a)
    (hB : Holds B b) : gemm true m n k A m B n = flat2 (aᵀ * b) := by
  apply eq_flat2
  · intro i j
    unfold gemm
    rw [if_pos (pos_lt i j), pos_div, pos_mod, Matrix.mul_apply]
    apply osum_some
    intro l
    rw [hB l j]
    simp only [if_true]
    rw [hA l i]; rfl
  · intro x hx
    unfold gemm
    rw [if_neg (by omega)]

/-- C150: the one-body kernel multiplies every walker by the operator. -/
theorem onebody_eq {nw n m : ℕ} (op : Matrix (Fin n) (Fin n) 𝕜) (phi : Fin nw → Matrix (Fin n) (Fin m) 𝕜) :
    onebody (nw := nw) n m (flat2 op) (flat3 phi) = flat3 fun z => op * phi z := by
  refine perWalker_congr fun z y _ => ?_
  rw [gemm_plain (holds_flat2 op) (holds_shift phi z)]

theorem taylorC_holds {n m : ℕ} {A phi : Ptr 𝕜} {a : Matrix (Fin n) (Fin n) 𝕜} {v : Matrix (Fin n) (Fin m) 𝕜} [CharZero 𝕜]
    (hA : Holds A a) (hv : Holds phi v) (order : ℕ) :
    Holds (taylorC n m A phi order).1 (∑ k ∈ Finset.range (order + 1), (1 / (k.factorial : 𝕜)) • (a ^ k * v)) ∧
      Holds (taylorC n m A phi order).2 ((1 / (order.factorial : 𝕜)) • (a ^ order * v)) := by
  induction order with
  | zero => exact ⟨by simpa [taylorC] using hv, by simpa [taylorC] using hv⟩
  | succ k ih =>
    have e : a * ((1 / (k.factorial : 𝕜)) • (a ^ k * v)) = (1 / (k.factorial : 𝕜)) • (a ^ (k + 1) * v) := by
      rw [Matrix.mul_smul, ← Matrix.mul_assoc, pow_succ']
    have hn : Holds (taylorC n m A phi (k + 1)).2 ((1 / ((k + 1).factorial : 𝕜)) • (a ^ (k + 1) * v)) := by
      intro i j
      change ((gemm false n m n A n (taylorC n m A phi k).2 m) _).map _ = _
      rw [gemm_plain hA ih.2, e, holds_flat2 _ i j]
      simp only [Option.map_some, Matrix.smul_apply, smul_eq_mul, Option.some.injEq]
      rw [Nat.factorial_succ]
      have h1 : (k.factorial : 𝕜) ≠ 0 := by exact_mod_cast k.factorial_ne_zero
      have h2 : ((k : 𝕜) + 1) ≠ 0 := by exact_mod_cast k.succ_ne_zero
      push_cast
      field_simp
    refine ⟨fun i j => ?_, hn⟩
    change (((taylorC n m A phi k).1 _).bind fun x => ((taylorC n m A phi (k + 1)).2 _).map fun b => x + b) = _
    rw [ih.1 i j, hn i j, Finset.sum_range_succ _ (k + 1), Matrix.add_apply]; rfl

/-- C150: the complex kernel for the auxiliary fields applies the exponential series cut at `order`. -/
theorem expOp_complex_eq [CharZero 𝕜] {nw n m : ℕ} (op : Fin nw → Matrix (Fin n) (Fin n) 𝕜)
    (phi : Fin nw → Matrix (Fin n) (Fin m) 𝕜) (order : ℕ) :
    expOpComplex (nw := nw) n m (flat3 phi) (flat3 op) order =
      flat3 fun z => ∑ k ∈ Finset.range (order + 1), (1 / (k.factorial : 𝕜)) • (op z ^ k * phi z) := by
  refine perWalker_congr fun z y hy => ?_
  have hc : 0 < m := Nat.pos_of_ne_zero fun h0 => by simp [h0] at hy
  have hi : y / m < n := Nat.div_lt_of_lt_mul (by rwa [Nat.mul_comm])
  have e : y / m * m + y % m = y := Nat.div_add_mod' y m
  have h1 := (taylorC_holds (holds_shift op z) (holds_shift phi z) order).1 ⟨y / m, hi⟩ ⟨y % m, Nat.mod_lt _ hc⟩
  have h2 := holds_flat2 (∑ k ∈ Finset.range (order + 1), (1 / (k.factorial : 𝕜)) • (op z ^ k * phi z)) ⟨y / m, hi⟩
    ⟨y % m, Nat.mod_lt _ hc⟩
  simp only [e] at h1 h2
  rw [h1]
  exact h2.symm

theorem taylorR_holds {n m : ℕ} {A phi : Ptr 𝕜} {a : Matrix (Fin n) (Fin n) 𝕜} {v : Matrix (Fin n) (Fin m) 𝕜}
    (hA : Holds A a) (hv : Holds phi v) (order : ℕ) :
    Holds (taylorR n m A phi order).1 (v + ∑ k ∈ Finset.range order, (1 / ((k : 𝕜) + 1)) • (a ^ (k + 1) * v)) ∧
      Holds (taylorR n m A phi order).2 (a ^ order * v) := by
  induction order with
  | zero => exact ⟨by simpa [taylorR] using hv, by simpa [taylorR] using hv⟩
  | succ k ih =>
    have e : a * (a ^ k * v) = a ^ (k + 1) * v := by rw [← Matrix.mul_assoc, pow_succ']
    have hn : Holds (taylorR n m A phi (k + 1)).2 (a ^ (k + 1) * v) := by
      intro i j
      change (gemm false n m n A n (taylorR n m A phi k).2 m) _ = _
      rw [gemm_plain hA ih.2, e, holds_flat2 _ i j]
    refine ⟨fun i j => ?_, hn⟩
    change (((taylorR n m A phi k).1 _).bind fun x => ((taylorR n m A phi (k + 1)).2 _).map fun b => x + b / ((k : 𝕜) + 1)) = _
    rw [ih.1 i j, hn i j, Finset.sum_range_succ, ← add_assoc, Matrix.add_apply (_ + _), Matrix.smul_apply]
    simp only [Option.bind_some, Option.map_some, smul_eq_mul, Option.some.injEq]
    ring

/-- C150: the real kernel divides by the order, not by its factorial. -/
theorem expOp_real_eq {nw n m : ℕ} (op : Fin nw → Matrix (Fin n) (Fin n) 𝕜)
    (phi : Fin nw → Matrix (Fin n) (Fin m) 𝕜) (order : ℕ) :
    expOpReal (nw := nw) n m (flat3 phi) (flat3 op) order =
      flat3 fun z => phi z + ∑ k ∈ Finset.range order, (1 / ((k : 𝕜) + 1)) • (op z ^ (k + 1) * phi z) := by
  refine perWalker_congr fun z y hy => ?_
  have hc : 0 < m := Nat.pos_of_ne_zero fun h0 => by simp [h0] at hy
  have hi : y / m < n := Nat.div_lt_of_lt_mul (by rwa [Nat.mul_comm])
  have e : y / m * m + y % m = y := Nat.div_add_mod' y m
  have h1 := (taylorR_holds (holds_shift op z) (holds_shift phi z) order).1 ⟨y / m, hi⟩ ⟨y % m, Nat.mod_lt _ hc⟩
  have h2 := holds_flat2 (phi z + ∑ k ∈ Finset.range order, (1 / ((k : 𝕜) + 1)) • (op z ^ (k + 1) * phi z)) ⟨y / m, hi⟩
    ⟨y % m, Nat.mod_lt _ hc⟩
  simp only [e] at h1 h2
  rw [h1]
  exact h2.symm

/-- C150: up to second order the two kernels agree. -/
theorem expOp_real_partial [CharZero 𝕜] {nw n m : ℕ} (op : Fin nw → Matrix (Fin n) (Fin n) 𝕜)
    (phi : Fin nw → Matrix (Fin n) (Fin m) 𝕜) (order : ℕ) (ho : order ≤ 2) :
    expOpReal (nw := nw) n m (flat3 phi) (flat3 op) order =
      flat3 fun z => ∑ k ∈ Finset.range (order + 1), (1 / (k.factorial : 𝕜)) • (op z ^ k * phi z) := by
  rw [expOp_real_eq]
  congr 1
  funext z
  interval_cases order
  · simp
  · simp [Finset.sum_range_succ]
  · simp only [Finset.sum_range_succ, Finset.sum_range_zero, Nat.factorial, zero_add, Nat.cast_zero, Nat.cast_one, pow_zero,
      Matrix.one_mul, one_div, mul_one, inv_one, one_smul, pow_one]
    norm_num
    abel

theorem flat3_inj {a b c : ℕ} {f g : Fin a → Matrix (Fin b) (Fin c) 𝕜} (h : flat3 f = flat3 g) : f = g := by
  funext z i j
  have h1 := holds_shift f z i j
  have h2 := holds_shift g z i j
  rw [h] at h1
  exact Option.some.inj (h1.symm.trans h2)

theorem series_lt (order : ℕ) (ho : 3 ≤ order) :
    ∑ k ∈ Finset.range (order + 1), 1 / (k.factorial : ℝ) < 1 + ∑ k ∈ Finset.range order, 1 / ((k : ℝ) + 1) := by
  rw [Finset.sum_range_succ']
  simp only [Nat.factorial_zero, Nat.cast_one, div_one]
  rw [add_comm]
  have : ∑ k ∈ Finset.range order, 1 / ((k + 1).factorial : ℝ) < ∑ k ∈ Finset.range order, 1 / ((k : ℝ) + 1) := by
    refine Finset.sum_lt_sum (fun k _ => ?_) ⟨2, Finset.mem_range.2 (by omega), by norm_num [Nat.factorial]⟩
    refine one_div_le_one_div_of_le (by positivity) ?_
    exact_mod_cast Nat.self_le_factorial (k + 1)
  linarith

/-- C150 fails: from third order on the real kernel is not the exponential series, here for the unit operator, whatever the sizes. -/
theorem expOp_real_fails {nw n m : ℕ} (hw : 0 < nw) (hn : 0 < n) (hm : 0 < m) (order : ℕ) (ho : 3 ≤ order) :
    ∃ (op : Fin nw → Matrix (Fin n) (Fin n) ℝ) (phi : Fin nw → Matrix (Fin n) (Fin m) ℝ),
      expOpReal (nw := nw) n m (flat3 phi) (flat3 op) order ≠
        flat3 fun z => ∑ k ∈ Finset.range (order + 1), (1 / (k.factorial : ℝ)) • (op z ^ k * phi z) := by
  refine ⟨fun _ => 1, fun _ => Matrix.of fun _ _ => 1, fun h => ?_⟩
  rw [expOp_real_eq] at h
  have h1 := congrFun (congrFun (congrFun (flat3_inj h) ⟨0, hw⟩) ⟨0, hn⟩) ⟨0, hm⟩
  simp only [one_pow, Matrix.one_mul, Matrix.add_apply, Matrix.sum_apply, Matrix.smul_apply, Matrix.of_apply, smul_eq_mul,
    mul_one] at h1
  exact absurd h1 (series_lt order ho).ne'

/-- C150: in a step the kernel for the fields gets an array made by the one-body kernel, so its result is not lost. -/
theorem hs_after_onebody {nw n m : ℕ} (op h : Ptr 𝕜) (phi : Arr 𝕜) (order : ℕ) :
    (hsCall (nw := nw) n m (onebodyCall (nw := nw) n m h phi) op order).data =
      expOpComplex (nw := nw) n m (onebody (nw := nw) n m h phi.data) op order := rfl

/-- C150 fails: called on an array that has to be converted, for example real walkers, the kernel changes a copy, and the caller
drops it. -/
theorem hs_lost_fails [CharZero 𝕜] : ∃ (op phi : Fin 1 → Matrix (Fin 1) (Fin 1) 𝕜),
    (hsCall (nw := 1) 1 1 ⟨flat3 phi, false⟩ (flat3 op) 1).data = flat3 phi ∧
      flat3 phi ≠ expOpComplex (nw := 1) 1 1 (flat3 phi) (flat3 op) 1 := by
  refine ⟨fun _ => 1, fun _ => 1, rfl, fun h => ?_⟩
  rw [expOp_complex_eq] at h
  have h1 := congrFun (congrFun (congrFun (flat3_inj h) 0) 0) 0
  simp [Finset.sum_range_succ] at h1

theorem holds_star [StarRing 𝕜] {b c : ℕ} (f : Matrix (Fin b) (Fin c) 𝕜) :
    Holds (fun x => (flat2 f x).map star) (f.map star) := by
  intro i j
  simp only [holds_flat2 f i j, Option.map_some, Matrix.map_apply]

/-- C150: the overlap matrices of all walkers. -/
theorem ovlp_eq [StarRing 𝕜] {nw n no : ℕ} (phi : Fin nw → Matrix (Fin n) (Fin no) 𝕜) (psi : Matrix (Fin n) (Fin no) 𝕜) :
    ovlpBase (nw := nw) n no (flat3 phi) (flat2 psi) = flat3 fun z => (psiᴴ * phi z)ᵀ := by
  unfold ovlpBase
  dsimp only
  refine perWalker_congr fun z y _ => ?_
  rw [gemm_trans (holds_shift phi z) (holds_star psi)]
  congr 1
  beta_reduce
  rw [Matrix.transpose_mul, Matrix.conjTranspose, Matrix.transpose_map, Matrix.transpose_transpose]

/-- C150: the half-rotated Green's functions of all walkers. -/
theorem ghalf_eq [StarRing 𝕜] {nw n no : ℕ} (inv : Ptr 𝕜 → Ptr 𝕜)
    (hinv : ∀ M : Matrix (Fin no) (Fin no) 𝕜, inv (flat2 M) = flat2 M⁻¹) (phi : Fin nw → Matrix (Fin n) (Fin no) 𝕜)
    (psi : Matrix (Fin n) (Fin no) 𝕜) :
    ghalfBase (nw := nw) inv n no (flat3 phi) (flat2 psi) = flat3 fun z => phi z * (psiᴴ * phi z)⁻¹ := by
  unfold ghalfBase
  dsimp only
  refine perWalker_congr fun z y _ => ?_
  rw [gemm_trans (holds_shift phi z) (holds_star psi), hinv]
  have e : ((phi z)ᵀ * psi.map star)⁻¹ = ((psiᴴ * phi z)⁻¹)ᵀ := by
    rw [Matrix.transpose_nonsing_inv, Matrix.transpose_mul, Matrix.conjTranspose, Matrix.transpose_map,
      Matrix.transpose_transpose]
  rw [e]
  have := eq_flat2 (f := phi z * (psiᴴ * phi z)⁻¹) (p := fun x => if x < n * no then
    osum no fun k => omul (((flat3 phi).shift (z * (n * no))) (x / no * no + k)) (flat2 (((psiᴴ * phi z)⁻¹)ᵀ) (x % no * no + k))
    else none) ?_ ?_
  · exact congrFun this y
  · intro i j
    beta_reduce
    rw [if_pos (pos_lt i j), pos_div, pos_mod, Matrix.mul_apply]
    apply osum_some
    intro l
    rw [holds_shift phi z i l, holds_flat2 _ j l]; rfl
  · intro x hx
    beta_reduce
    rw [if_neg (by omega)]

/-- C150: the exchange energy of a walker. -/
theorem exx_eq {nw nchol nao no : ℕ} (rl : Fin nchol → Matrix (Fin nao) (Fin no) 𝕜) (gh : Fin nw → Matrix (Fin nao) (Fin no) 𝕜)
    (i : Fin nw) :
    exx nchol nao no (flat3 rl) (flat3 gh) i = some (1 / 2 * ∑ l, ((rl l)ᵀ * gh i * ((rl l)ᵀ * gh i)).trace) := by
  unfold exx
  rw [osum_some (g := fun l => ((rl l)ᵀ * gh i * ((rl l)ᵀ * gh i)).trace)]
  · rfl
  · intro l
    rw [gemm_trans (holds_shift rl l) (holds_shift gh i)]
    refine (osum_some (g := fun x => ∑ y, ((rl l)ᵀ * gh i) x y * ((rl l)ᵀ * gh i) y x) ?_).trans ?_
    · intro x
      apply osum_some
      intro y
      rw [holds_flat2 _ x y, holds_flat2 _ y x]; rfl
    · simp only [Matrix.trace, Matrix.diag_apply, Matrix.mul_apply (M := (rl l)ᵀ * gh i)]

theorem osum_flat {b c : ℕ} {p q : Ptr 𝕜} {f g : Matrix (Fin b) (Fin c) 𝕜} (hp : Holds p f) (hq : Holds q g) :
    dotu (b * c) p q = some (∑ i, ∑ j, f i j * g i j) := by
  unfold dotu
  rw [osum_some (g := fun k : Fin (b * c) => f (finProdFinEquiv.symm k).1 (finProdFinEquiv.symm k).2 *
    g (finProdFinEquiv.symm k).1 (finProdFinEquiv.symm k).2)]
  · rw [← finProdFinEquiv.sum_comp]
    simp only [Equiv.symm_apply_apply]
    rw [Fintype.sum_prod_type]
  · intro k
    obtain ⟨⟨i, j⟩, rfl⟩ := finProdFinEquiv.surjective k
    have : ((finProdFinEquiv (i, j) : Fin (b * c)) : ℕ) = i * c + j := by
      simp [finProdFinEquiv, Nat.add_comm, Nat.mul_comm]
    rw [this, hp i j, hq i j, Equiv.symm_apply_apply]; rfl

/-- C150: the Coulomb energy of a walker, one spin component. -/
theorem ecoul_rhf_eq {nw nchol nao no : ℕ} (rl : Fin nchol → Matrix (Fin nao) (Fin no) 𝕜)
    (gh : Fin nw → Matrix (Fin nao) (Fin no) 𝕜) (i : Fin nw) :
    ecoulRhf nchol nao no (flat3 rl) (flat3 gh) i = some (1 / 2 * ∑ l, (∑ p, ∑ q, gh i p q * rl l p q) ^ 2) := by
  unfold ecoulRhf
  rw [osum_some (g := fun l => (∑ p, ∑ q, gh i p q * rl l p q) ^ 2)]
  · rfl
  · intro l
    rw [osum_flat (holds_shift gh i) (holds_shift rl l)]
    simp [omul, sq]

/-- C150: with as many electrons of each spin the Coulomb energy of two spin components is right. -/
theorem ecoul_uhf_partial {nw nchol nao no : ℕ} (rla rlb : Fin nchol → Matrix (Fin nao) (Fin no) 𝕜)
    (gha ghb : Fin nw → Matrix (Fin nao) (Fin no) 𝕜) (i : Fin nw) :
    ecoulUhf nchol nao no no (flat3 rla) (flat3 gha) (flat3 rlb) (flat3 ghb) i =
      some (1 / 2 * ∑ l, ((∑ p, ∑ q, gha i p q * rla l p q) + ∑ p, ∑ q, ghb i p q * rlb l p q) ^ 2) := by
  unfold ecoulUhf
  dsimp only
  rw [osum_some (g := fun l => ((∑ p, ∑ q, gha i p q * rla l p q) + ∑ p, ∑ q, ghb i p q * rlb l p q) ^ 2)]
  · rfl
  · intro l
    rw [osum_flat (holds_shift gha i) (holds_shift rla l), osum_flat (holds_shift ghb i) (holds_shift rlb l)]
    simp [omul, sq]

theorem flat3_out {a b c : ℕ} (f : Fin a → Matrix (Fin b) (Fin c) 𝕜) {x : ℕ} (hx : a * (b * c) ≤ x) : flat3 f x = none := by
  unfold flat3 perWalker
  rw [dif_neg (by omega)]

/-- C150 fails: with fewer electrons of the second spin the last walker is computed from memory behind the array. -/
theorem ecoul_uhf_fails {nw nchol nao na nb : ℕ} (hnw : 0 < nw) (hnc : 0 < nchol) (hnao : 0 < nao) (hab : nb < na)
    (rla : Fin nchol → Matrix (Fin nao) (Fin na) 𝕜) (gha : Fin nw → Matrix (Fin nao) (Fin na) 𝕜)
    (rlb : Fin nchol → Matrix (Fin nao) (Fin nb) 𝕜) (ghb : Fin nw → Matrix (Fin nao) (Fin nb) 𝕜) :
    ecoulUhf nchol nao na nb (flat3 rla) (flat3 gha) (flat3 rlb) (flat3 ghb) (nw - 1) = none := by
  unfold ecoulUhf
  dsimp only
  rw [osum_none (k := 0) hnc]
  · rfl
  · have : dotu (nao * na) ((flat3 ghb).shift ((nw - 1) * (nao * nb))) ((flat3 rlb).shift (0 * (nao * nb))) = none := by
      unfold dotu
      have hlt : nao * nb < nao * na := Nat.mul_lt_mul_of_pos_left hab hnao
      refine osum_none (k := nao * nb) hlt ?_
      have : (flat3 ghb).shift ((nw - 1) * (nao * nb)) (nao * nb) = none := by
        unfold Ptr.shift
        apply flat3_out
        obtain ⟨k, rfl⟩ : ∃ k, nw = k + 1 := ⟨nw - 1, by omega⟩
        simp only [Nat.add_sub_cancel]
        exact (Nat.succ_mul k _).le
      rw [this]; rfl
    rw [this]
    cases dotu (nao * na) ((flat3 gha).shift ((nw - 1) * (nao * na))) ((flat3 rla).shift (0 * (nao * na))) <;> rfl

/-- C150: the contraction of the fields with the tensors. -/
theorem tensordot_eq {z n p q : ℕ} (A : Matrix (Fin z) (Fin n) 𝕜) (B : Fin n → Matrix (Fin p) (Fin q) 𝕜) :
    tensordot (z := z) n p q (flat2 A) (flat3 B) = flat3 fun zi => ∑ k, A zi k • B k := by
  refine perWalker_congr fun zi y _ => ?_
  refine congrFun (eq_flat2 (f := ∑ k, A zi k • B k) (p := fun x => if x < p * q then
    osum n fun ni => omul (flat2 A (zi * n + ni)) (flat3 B (ni * (p * q) + x)) else none) ?_ ?_) y
  · intro i j
    beta_reduce
    rw [if_pos (pos_lt i j), Matrix.sum_apply]
    apply osum_some
    intro k
    rw [holds_flat2 A zi k]
    have := holds_shift B k i j
    unfold Ptr.shift at this
    rw [this]; rfl
  · intro x hx
    beta_reduce
    rw [if_neg (by omega)]

/-- Two walkers, one orbital, one electron of each spin. -/
example : ecoulUhf 1 1 1 1 (flat3 fun _ : Fin 1 => (1 : Matrix (Fin 1) (Fin 1) ℚ)) (flat3 fun _ : Fin 2 => (!![2] : Matrix (Fin 1) (Fin 1) ℚ))
    (flat3 fun _ : Fin 1 => (1 : Matrix (Fin 1) (Fin 1) ℚ)) (flat3 fun _ : Fin 2 => (1 : Matrix (Fin 1) (Fin 1) ℚ)) 1 = some (9 / 2) := by
  have := ecoul_uhf_partial (nw := 2) (fun _ : Fin 1 => (1 : Matrix (Fin 1) (Fin 1) ℚ)) (fun _ => 1) (fun _ => !![2]) (fun _ => 1) 1
  simp only [Finset.univ_unique, Fin.default_eq_zero, Finset.sum_singleton, Matrix.one_apply_eq, Matrix.of_apply, Matrix.cons_val_zero, Matrix.cons_val_fin_one] at this
  rw [Fin.val_one] at this
  rw [this]
  norm_num

end OpenMS.Kernels
