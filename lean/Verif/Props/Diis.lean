import Verif.Model.Diis
import Mathlib.Tactic
import Mathlib.LinearAlgebra.Matrix.Trace
import Mathlib.LinearAlgebra.Matrix.PosDef
import Mathlib.Data.List.OfFn
import Mathlib.Analysis.Complex.Order

namespace OpenMS.Diis

open Matrix

variable {n m : ℕ}

/-- All entries of a vector are zero. -/
def Zero (l : List ℂ) : Prop := ∀ x ∈ l, x = 0

theorem zero_append (a b : List ℂ) : Zero (a ++ b) ↔ Zero a ∧ Zero b := by
  simp only [Zero, List.mem_append]
  exact ⟨fun h => ⟨fun x hx => h x (.inl hx), fun x hx => h x (.inr hx)⟩,
    fun h x hx => hx.elim (h.1 x) (h.2 x)⟩

theorem ravel_zero {a b : ℕ} (M : Matrix (Fin a) (Fin b) ℂ) : Zero (ravel M) ↔ M = 0 := by
  simp only [Zero, ravel, List.mem_flatMap, List.mem_map, List.mem_finRange, true_and]
  constructor
  · intro h
    ext i j
    exact h _ ⟨i, j, rfl⟩
  · rintro rfl x ⟨i, j, rfl⟩
    rfl

theorem ravel_length {a b : ℕ} (M : Matrix (Fin a) (Fin b) ℂ) : (ravel M).length = a * b := by
  simp [ravel, List.length_flatMap]

theorem block_zero {s d f : Matrix (Fin n) (Fin n) ℂ} (hs : sᴴ = s) (hd : dᴴ = d) (hf : fᴴ = f) :
    Zero (block s d f) ↔ f * d * s = s * d * f := by
  rw [block, ravel_zero, sub_eq_zero]
  simp only [conjTranspose_mul, hs, hd, hf, Matrix.mul_assoc]

/-- The error vector of one Fock matrix vanishes exactly if the matrix commutes with the density and
the gradient of the further parameters vanishes. -/
theorem err_zero {s d f : Matrix (Fin n) (Fin n) ℂ} (hs : sᴴ = s) (hd : dᴴ = d) (hf : fᴴ = f)
    (o : Option (Fin m → ℕ)) (g : List ℂ) :
    ∃ e, errVec o (.mat s) (.mat d) (.mat f) (none : Option (Arr n m)) (some g) = some e ∧
      e.length = n * n + g.length ∧
      ((∀ x ∈ e, x = 0) ↔ f * d * s = s * d * f ∧ ∀ x ∈ g, x = 0) := by
  refine ⟨_, rfl, ?_, ?_⟩
  · simp [block, ravel_length]
  · exact (zero_append _ _).trans (and_congr (block_zero hs hd hf) Iff.rfl)

/-- Without further parameters. -/
theorem err_zero_plain {s d f : Matrix (Fin n) (Fin n) ℂ} (hs : sᴴ = s) (hd : dᴴ = d) (hf : fᴴ = f)
    (o : Option (Fin m → ℕ)) :
    ∃ e, errVec o (.mat s) (.mat d) (.mat f) (none : Option (Arr n m)) none = some e ∧
      e.length = n * n ∧ ((∀ x ∈ e, x = 0) ↔ f * d * s = s * d * f) :=
  ⟨_, rfl, by simp [block, ravel_length], block_zero hs hd hf⟩

/-- Two spins with one overlap matrix. -/
theorem err_zero_spin {s da db fa fb : Matrix (Fin n) (Fin n) ℂ} (hs : sᴴ = s) (hda : daᴴ = da)
    (hdb : dbᴴ = db) (hfa : faᴴ = fa) (hfb : fbᴴ = fb) (o : Option (Fin m → ℕ)) (g : List ℂ) :
    ∃ e, errVec o (.mat s) (.stack [da, db]) (.stack [fa, fb]) (none : Option (Arr n m)) (some g)
        = some e ∧ e.length = 2 * (n * n) + g.length ∧
      ((∀ x ∈ e, x = 0) ↔
        fa * da * s = s * da * fa ∧ fb * db * s = s * db * fb ∧ ∀ x ∈ g, x = 0) := by
  refine ⟨_, rfl, ?_, ?_⟩
  · simp [block, ravel_length, two_mul, add_assoc]
  · refine (zero_append _ _).trans ?_
    rw [zero_append, block_zero hs hda hfa, block_zero hs hdb hfb, and_assoc]
    rfl

theorem zero_zipWith3 {α β γ : Type} (F : α → β → γ → List ℂ) :
    ∀ (as : List α) (bs : List β) (cs : List γ), cs.length ≤ as.length → cs.length ≤ bs.length →
      (Zero (List.zipWith3 F as bs cs).flatten ↔
        ∀ i (h : i < cs.length) (ha : i < as.length) (hb : i < bs.length), Zero (F as[i] bs[i] cs[i]))
  | [], _, [], _, _ => by simp [List.zipWith3, Zero]
  | _ :: _, [], [], _, _ => by simp [List.zipWith3, Zero]
  | _ :: _, _ :: _, [], _, _ => by simp [List.zipWith3, Zero]
  | [], _, c :: cs, h, _ => by simp at h
  | _ :: _, [], c :: cs, _, h => by simp at h
  | a :: as, b :: bs, c :: cs, h1, h2 => by
    simp only [List.zipWith3, List.flatten_cons, zero_append]
    rw [zero_zipWith3 F as bs cs (by simpa using h1) (by simpa using h2)]
    constructor
    · rintro ⟨h0, h⟩ i hi ha hb
      cases i with
      | zero => exact h0
      | succ i => exact h i (by simpa using hi) (by simpa using ha) (by simpa using hb)
    · intro h
      exact ⟨h 0 (by simp) (by simp) (by simp),
        fun i hi ha hb => h (i + 1) (by simpa using hi) (by simpa using ha) (by simpa using hb)⟩

/-- Several matrices with an overlap each, as for k points. -/
theorem err_zero_stack {ss ds fs : List (Matrix (Fin n) (Fin n) ℂ)} (h0 : fs ≠ [])
    (h1 : fs.length ≤ ss.length) (h2 : fs.length ≤ ds.length)
    (hs : ∀ s ∈ ss, sᴴ = s) (hd : ∀ d ∈ ds, dᴴ = d) (hf : ∀ f ∈ fs, fᴴ = f)
    (o : Option (Fin m → ℕ)) :
    ∃ e, errVec o (.stack ss) (.stack ds) (.stack fs) (none : Option (Arr n m)) none = some e ∧
      ((∀ x ∈ e, x = 0) ↔ ∀ i (h : i < fs.length),
        fs[i] * ds[i] * ss[i] = ss[i] * ds[i] * fs[i]) := by
  refine ⟨(List.zipWith3 block ss ds fs).flatten, ?_, ?_⟩
  · simp [errVec, errOrig, h0, h1, h2]
  · refine (zero_zipWith3 block ss ds fs h1 h2).trans ?_
    constructor
    · intro h i hi
      exact (block_zero (hs _ (List.getElem_mem _)) (hd _ (List.getElem_mem _))
        (hf _ (List.getElem_mem _))).1 (h i hi (by omega) (by omega))
    · intro h i hi ha hb
      exact (block_zero (hs _ (List.getElem_mem _)) (hd _ (List.getElem_mem _))
        (hf _ (List.getElem_mem _))).2 (h i hi)

/-! ### Orthonormal basis -/

theorem blockOrth_zero {s d f : Matrix (Fin n) (Fin n) ℂ} (hs : sᴴ = s) (hd : dᴴ = d) (hf : fᴴ = f)
    (C : Matrix (Fin n) (Fin m) ℂ) :
    Zero (blockOrth none s d f C) ↔ Cᴴ * (f * d * s - s * d * f) * C = 0 := by
  rw [blockOrth, ravel_zero, mask]
  simp only [conjTranspose_mul, conjTranspose_conjTranspose, hs, hd, hf, Matrix.mul_sub,
    Matrix.sub_mul, Matrix.mul_assoc]

/-- In a complete basis the error is equivalent to that of the atomic orbitals. -/
theorem orth_zero {s d f : Matrix (Fin n) (Fin n) ℂ} (hs : sᴴ = s) (hd : dᴴ = d) (hf : fᴴ = f)
    {C : Matrix (Fin n) (Fin m) ℂ} {B : Matrix (Fin m) (Fin n) ℂ} (hC : C * B = 1) (g : List ℂ) :
    ∃ e, errVec none (.mat s) (.mat d) (.mat f) (some (.mat C)) (some g) = some e ∧
      e.length = m * m + g.length ∧
      ((∀ x ∈ e, x = 0) ↔ f * d * s = s * d * f ∧ ∀ x ∈ g, x = 0) := by
  refine ⟨_, rfl, ?_, ?_⟩
  · simp [blockOrth, ravel_length]
  · refine (zero_append _ _).trans (and_congr ?_ Iff.rfl)
    rw [blockOrth_zero hs hd hf, ← sub_eq_zero (a := f * d * s)]
    constructor
    · intro h
      have hB : Bᴴ * Cᴴ = 1 := by rw [← conjTranspose_mul, hC, conjTranspose_one]
      have : Bᴴ * (Cᴴ * (f * d * s - s * d * f) * C) * B = f * d * s - s * d * f := by
        rw [show Bᴴ * (Cᴴ * (f * d * s - s * d * f) * C) * B
          = Bᴴ * Cᴴ * (f * d * s - s * d * f) * (C * B) by simp only [Matrix.mul_assoc], hB, hC,
          Matrix.one_mul, Matrix.mul_one]
      rw [← this, h, Matrix.mul_zero, Matrix.zero_mul]
    · intro h
      rw [h, Matrix.mul_zero, Matrix.zero_mul]

/-- With linearly dependent functions removed: the error vanishes exactly if density and Fock matrix
of the reduced basis commute. -/
theorem orth_reduced {s d' f : Matrix (Fin n) (Fin n) ℂ} (hs : sᴴ = s) (hf : fᴴ = f)
    {C : Matrix (Fin n) (Fin m) ℂ} (hC : Cᴴ * s * C = 1) {D : Matrix (Fin m) (Fin m) ℂ}
    (hD : Dᴴ = D) (hd : d' = C * D * Cᴴ) (g : List ℂ) :
    ∃ e, errVec none (.mat s) (.mat d') (.mat f) (some (.mat C)) (some g) = some e ∧
      ((∀ x ∈ e, x = 0) ↔
        Cᴴ * f * C * D = D * (Cᴴ * f * C) ∧ ∀ x ∈ g, x = 0) := by
  refine ⟨_, rfl, ?_⟩
  refine (zero_append _ _).trans (and_congr ?_ Iff.rfl)
  have hd' : d'ᴴ = d' := by
    rw [hd]
    simp only [conjTranspose_mul, conjTranspose_conjTranspose, hD, Matrix.mul_assoc]
  rw [blockOrth_zero hs hd' hf]
  have e1 : Cᴴ * (f * d' * s) * C = Cᴴ * f * C * D := by
    rw [hd, show Cᴴ * (f * (C * D * Cᴴ) * s) * C = Cᴴ * f * C * D * (Cᴴ * s * C) by
      simp only [Matrix.mul_assoc], hC, Matrix.mul_one]
  have e2 : Cᴴ * (s * d' * f) * C = D * (Cᴴ * f * C) := by
    rw [hd, show Cᴴ * (s * (C * D * Cᴴ) * f) * C = (Cᴴ * s * C) * D * (Cᴴ * f * C) by
      simp only [Matrix.mul_assoc], hC, Matrix.one_mul]
  rw [Matrix.mul_sub, Matrix.sub_mul, e1, e2, sub_eq_zero]

/-- With orbital symmetries only the entries between orbitals of the same symmetry count. -/
theorem orth_sym {s d f : Matrix (Fin n) (Fin n) ℂ} (hs : sᴴ = s) (hd : dᴴ = d) (hf : fᴴ = f)
    (C : Matrix (Fin n) (Fin m) ℂ) (o : Fin m → ℕ) (g : List ℂ) :
    ∃ e, errVec (some o) (.mat s) (.mat d) (.mat f) (some (.mat C)) (some g) = some e ∧
      ((∀ x ∈ e, x = 0) ↔ (∀ i j, o i = o j → (Cᴴ * (f * d * s - s * d * f) * C) i j = 0) ∧
        ∀ x ∈ g, x = 0) := by
  refine ⟨_, rfl, ?_⟩
  refine (zero_append _ _).trans (and_congr ?_ Iff.rfl)
  have e : Cᴴ * (f * d * s - s * d * f) * C = (Cᴴ * s * d * f * C)ᴴ - Cᴴ * s * d * f * C := by
    simp only [conjTranspose_mul, conjTranspose_conjTranspose, hs, hd, hf, Matrix.mul_sub,
      Matrix.sub_mul, Matrix.mul_assoc]
  rw [blockOrth, ravel_zero, e]
  generalize Cᴴ * s * d * f * C = M
  constructor
  · intro h i j ho
    have := congrFun (congrFun h i) j
    simpa [mask, ho] using this
  · intro h
    ext i j
    by_cases ho : o i = o j
    · have := h i j ho
      simpa [mask, ho] using this
    · simp [mask, ho, Ne.symm ho]

/-- If density and Fock matrix have the symmetry nothing is lost. -/
theorem orth_sym_partial {s d f : Matrix (Fin n) (Fin n) ℂ} (hs : sᴴ = s) (hd : dᴴ = d) (hf : fᴴ = f)
    {C : Matrix (Fin n) (Fin m) ℂ} {B : Matrix (Fin m) (Fin n) ℂ} (hC : C * B = 1) (o : Fin m → ℕ)
    (hsym : ∀ i j, o i ≠ o j → (Cᴴ * (s * d * f) * C) i j = 0) (g : List ℂ) :
    ∃ e, errVec (some o) (.mat s) (.mat d) (.mat f) (some (.mat C)) (some g) = some e ∧
      ((∀ x ∈ e, x = 0) ↔ f * d * s = s * d * f ∧ ∀ x ∈ g, x = 0) := by
  obtain ⟨e', he', -, h'⟩ := orth_zero hs hd hf hC g
  have : mask (some o) (Cᴴ * s * d * f * C) = Cᴴ * s * d * f * C := by
    ext i j
    by_cases ho : o i = o j
    · simp [mask, ho]
    · have := hsym i j ho
      simp only [Matrix.mul_assoc] at this
      simp [mask, ho, Matrix.mul_assoc, this]
  refine ⟨e', ?_, h'⟩
  rw [← he']
  simp only [errVec, errOrth, blockOrth, this]
  rfl

/-- A Fock matrix that couples orbitals of different symmetry gives no error although it does not
commute with the density. -/
theorem orth_sym_fails :
    ∃ (d f : Matrix (Fin 2) (Fin 2) ℂ) (o : Fin 2 → ℕ) (e : List ℂ), dᴴ = d ∧ fᴴ = f ∧
      errVec (some o) (.mat 1) (.mat d) (.mat f) (some (.mat 1)) none = some e ∧
      (∀ x ∈ e, x = 0) ∧ f * d * 1 ≠ 1 * d * f := by
  refine ⟨!![1, 0; 0, 0], !![0, 1; 1, 0], fun i => i.1, _, ?_, ?_, rfl, ?_, ?_⟩
  · ext i j
    fin_cases i <;> fin_cases j <;> simp
  · ext i j
    fin_cases i <;> fin_cases j <;> simp
  · refine (ravel_zero _).2 ?_
    ext i j
    fin_cases i <;> fin_cases j <;> simp [mask]
  · intro h
    have := congrFun (congrFun h 0) 1
    simp at this

/-! ### Stationary energy -/

/-- The error vanishes exactly if the energy is stationary: the derivative `tr(F δD)` is zero for
every variation of the density that keeps it hermitian and idempotent to first order. -/
theorem stationary {s d f : Matrix (Fin n) (Fin n) ℂ} (hs : sᴴ = s) (hd : dᴴ = d) (hf : fᴴ = f)
    (hi : d * s * d = d) (o : Option (Fin m → ℕ)) :
    ∃ e, errVec o (.mat s) (.mat d) (.mat f) (none : Option (Arr n m)) none = some e ∧
      ((∀ x ∈ e, x = 0) ↔
        ∀ δ : Matrix (Fin n) (Fin n) ℂ, δᴴ = δ → δ * s * d + d * s * δ = δ → trace (f * δ) = 0) := by
  refine ⟨_, rfl, (block_zero hs hd hf).trans ?_⟩
  constructor
  · intro h δ _ hδ
    -- the block of the variation between occupied orbitals vanishes
    have h2 : d * s * δ * s * d = 0 := by
      have e : d * s * (δ * s * d + d * s * δ) * s * d = d * s * δ * s * d := by rw [hδ]
      have e' : d * s * (δ * s * d + d * s * δ) * s * d
          = d * s * δ * s * (d * s * d) + (d * s * d) * s * δ * s * d := by
        simp only [Matrix.mul_add, Matrix.add_mul, Matrix.mul_assoc]
      rw [e', hi] at e
      have := add_eq_left.1 e
      exact this
    have e1 : trace (f * (δ * s * d)) = trace (f * d * s * δ * s * d) := by
      rw [show f * (δ * s * d) = f * δ * s * (d * s * d) by rw [hi]; simp only [Matrix.mul_assoc]]
      rw [show f * δ * s * (d * s * d) = (f * δ * s * d) * (s * d) by simp only [Matrix.mul_assoc],
        trace_mul_comm, show s * d * (f * δ * s * d) = s * d * f * (δ * s * d) by
          simp only [Matrix.mul_assoc], ← h]
      simp only [Matrix.mul_assoc]
    have e2 : trace (f * (d * s * δ)) = trace (f * d * s * δ * s * d) := by
      rw [show f * (d * s * δ) = f * d * s * δ by simp only [Matrix.mul_assoc], h,
        show s * d * f * δ = (s * d) * (f * δ) by simp only [Matrix.mul_assoc], trace_mul_comm,
        show f * δ * (s * d) = f * (δ * s * d) by simp only [Matrix.mul_assoc], e1, h]
      simp only [Matrix.mul_assoc]
    have e3 : f * d * s * δ * s * d = f * (d * s * δ * s * d) := by simp only [Matrix.mul_assoc]
    rw [← hδ, Matrix.mul_add, trace_add, e1, e2, e3, h2, Matrix.mul_zero, trace_zero, add_zero]
  · intro h
    have hA : (s * d * f - f * d * s)ᴴ = -(s * d * f - f * d * s) := by
      simp only [conjTranspose_sub, conjTranspose_mul, hs, hd, hf, Matrix.mul_assoc, neg_sub]
    generalize hAe : s * d * f - f * d * s = A at hA
    have h1 : (A * s * d - d * s * A)ᴴ = A * s * d - d * s * A := by
      simp only [conjTranspose_sub, conjTranspose_mul, hs, hd, hA, Matrix.mul_neg, Matrix.neg_mul,
        Matrix.mul_assoc]
      abel
    have h2 : (A * s * d - d * s * A) * s * d + d * s * (A * s * d - d * s * A)
        = A * s * d - d * s * A := by
      have e : (A * s * d - d * s * A) * s * d + d * s * (A * s * d - d * s * A)
          = A * s * (d * s * d) - (d * s * d) * s * A := by
        simp only [Matrix.sub_mul, Matrix.mul_sub, Matrix.mul_assoc]
        abel
      rw [e, hi]
    have h3 : trace (f * (A * s * d - d * s * A)) = trace (A * A) := by
      rw [Matrix.mul_sub, trace_sub,
        show f * (A * s * d) = f * (A * (s * d)) by simp only [Matrix.mul_assoc], trace_mul_comm,
        show A * (s * d) * f = A * (s * d * f) by simp only [Matrix.mul_assoc],
        show f * (d * s * A) = f * d * s * A by simp only [Matrix.mul_assoc],
        trace_mul_comm (f * d * s), ← trace_sub, ← Matrix.mul_sub, hAe]
    have h4 := h _ h1 h2
    rw [h3] at h4
    have h5 : trace (Aᴴ * A) = 0 := by
      rw [hA, Matrix.neg_mul, trace_neg, h4, neg_zero]
    have h6 : A = 0 := by
      open scoped ComplexOrder in
      exact trace_conjTranspose_mul_self_eq_zero_iff.1 h5
    rw [h6] at hAe
    exact (sub_eq_zero.1 hAe).symm

/-- Hypotheses of `stationary`: one orbital occupied in an orthonormal basis of two. -/
example : (!![1, 0; 0, 0] : Matrix (Fin 2) (Fin 2) ℂ) * 1 * !![1, 0; 0, 0] = !![1, 0; 0, 0] ∧
    (!![1, 0; 0, 0] : Matrix (Fin 2) (Fin 2) ℂ)ᴴ = !![1, 0; 0, 0] := by
  constructor
  · ext i j
    fin_cases i <;> fin_cases j <;> simp
  · ext i j
    fin_cases i <;> fin_cases j <;> simp

/-! ### The call of the extrapolation -/

/-- With variational parameters the extrapolation gets the Fock matrix and the parameters, in this
order, and the error. -/
theorem update_partial (o : Option (Fin m → ℕ)) (s d f : Matrix (Fin n) (Fin n) ℂ) (v g : List ℂ) :
    ∃ e, updateArgs o (.mat s) (.mat d) (.mat f) (none : Option (Arr n m)) (some v) (some g)
        = some (ravel f ++ v, e) ∧ (ravel f ++ v).length = n * n + v.length ∧
      e.length = n * n + g.length := by
  refine ⟨_, rfl, ?_, ?_⟩
  · simp [ravel_length]
  · simp [block, ravel_length]

/-- The entries of the Fock matrix are where `set_params` looks for them. -/
theorem ravel_get {a b : ℕ} (M : Matrix (Fin a) (Fin b) ℂ) (l : List ℂ) (i : Fin a) (j : Fin b) :
    (ravel M ++ l)[i.1 * b + j.1]? = some (M i j) := by
  have hb : 0 < b := Nat.pos_of_ne_zero (by rintro rfl; exact j.elim0)
  have hlt : i.1 * b + j.1 < a * b :=
    calc i.1 * b + j.1 < i.1 * b + b := Nat.add_lt_add_left j.2 _
      _ = (i.1 + 1) * b := by ring
      _ ≤ a * b := Nat.mul_le_mul_right _ i.2
  have e : ravel M = List.ofFn fun k : Fin (a * b) => M k.divNat k.modNat := by
    rw [List.ofFn_mul, ravel, List.flatMap_def, List.ofFn_eq_map]
    congr 1
    refine List.map_congr_left fun i _ => ?_
    rw [List.ofFn_eq_map]
    refine List.map_congr_left fun j _ => ?_
    congr 1
    · ext
      simp [Fin.divNat, Nat.add_comm (i.1 * b), Nat.add_mul_div_right _ _ hb, Nat.div_eq_of_lt j.2]
    · ext
      simp [Fin.modNat, Nat.mod_eq_of_lt j.2]
  rw [List.getElem?_append_left (by rw [ravel_length]; exact hlt), e, List.getElem?_ofFn, dif_pos hlt]
  congr 2
  · ext
    simp [Fin.divNat, Nat.add_comm (i.1 * b), Nat.add_mul_div_right _ _ hb, Nat.div_eq_of_lt j.2]
  · ext
    simp [Fin.modNat, Nat.mod_eq_of_lt j.2]

/-- Without variational parameters, as the mean field of `qedhf.py` passes them, the call raises. -/
theorem update_fails (o : Option (Fin m → ℕ)) (s d f : Arr n n) (C : Option (Arr n m))
    (g : Option (List ℂ)) : updateArgs o s d f C none g = none := by
  unfold updateArgs
  cases errVec o s d f C g <;> rfl

/-- The stored vectors never exceed the space, and a rollback keeps the newest. -/
theorem bookkeep_spec {α : Type*} (r sp : ℕ) (l : List α) :
    ∃ old, l = old ++ bookkeep r sp l ∧
      (bookkeep r sp l).length = if 0 < r ∧ l.length = sp then min r sp else l.length := by
  unfold bookkeep
  split_ifs with h
  · refine ⟨l.take (l.length - r), (List.take_append_drop _ _).symm, ?_⟩
    rw [List.length_drop]
    omega
  · exact ⟨[], rfl, rfl⟩

end OpenMS.Diis
