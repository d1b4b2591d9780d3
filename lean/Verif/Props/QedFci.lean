import Verif.Lemmas.QedFci

/-!
# C47-C49, C83-C86: full CI with bosons
-/

namespace OpenMS.QedFci
set_option linter.unusedSectionVars false

/-! ## C47: creation and annihilation operators -/

section Boson
variable {m : ℕ} {S : Type*}

/-- C47: creation maps amplitudes up with `√n` (and there is nothing to create the vacuum from),
annihilation maps them down with `√(n+1)` (and loses what would come from above the cut-off). -/
theorem c47_matrix_elements (N : Fin m → ℕ) (x : Fin m) (c : S → (Fin m → ℕ) → ℝ) (s : S)
    (σ : Fin m → ℕ) (hσ : InBox N σ) :
    creBoson N x c s σ = Real.sqrt (σ x) * c s (Function.update σ x (σ x - 1)) ∧
    desBoson N x c s σ =
      if σ x < N x then Real.sqrt ((σ x : ℝ) + 1) * c s (Function.update σ x (σ x + 1)) else 0 :=
  ⟨creBoson_succ N x c s σ (hσ x), desBoson_eq N x c s σ⟩

/-- C47: `⟨d | b† c⟩ = ⟨b d | c⟩` for every number of modes, every cut-off and all CI vectors. -/
theorem c47_adjoint [Fintype S] (N : Fin m → ℕ) (x : Fin m) (c d : S → (Fin m → ℕ) → ℝ) :
    ∑ s, ∑ σ ∈ box N, d s σ * creBoson N x c s σ = ∑ s, ∑ σ ∈ box N, desBoson N x d s σ * c s σ := by
  refine Finset.sum_congr rfl fun s _ => ?_
  have h1 : ∑ σ ∈ box N, d s σ * creBoson N x c s σ =
      ∑ σ ∈ (box N).filter (fun σ => σ x ≠ 0), d s σ * creBoson N x c s σ := by
    rw [Finset.sum_filter]
    refine Finset.sum_congr rfl fun σ hσ => ?_
    by_cases h : σ x = 0
    · rw [creBoson_succ N x c s σ (mem_box.1 hσ x)]; simp [h]
    · simp [h]
  have h2 : ∑ σ ∈ box N, desBoson N x d s σ * c s σ =
      ∑ σ ∈ (box N).filter (fun σ => σ x < N x), desBoson N x d s σ * c s σ := by
    rw [Finset.sum_filter]
    refine Finset.sum_congr rfl fun σ hσ => ?_
    by_cases h : σ x < N x
    · simp [h]
    · rw [desBoson_eq]; simp [h]
  rw [h1, h2]
  refine Finset.sum_nbij' (fun σ => Function.update σ x (σ x - 1))
    (fun σ => Function.update σ x (σ x + 1)) ?_ ?_ ?_ ?_ ?_
  · intro σ hσ
    simp only [Finset.mem_filter, mem_box, InBox] at hσ ⊢
    refine ⟨fun y => ?_, ?_⟩
    · by_cases hy : y = x
      · subst hy; have := hσ.1 y; simp; omega
      · simpa [Function.update_of_ne hy] using hσ.1 y
    · have := hσ.1 x; have := hσ.2; simp; omega
  · intro σ hσ
    simp only [Finset.mem_filter, mem_box, InBox] at hσ ⊢
    refine ⟨fun y => ?_, ?_⟩
    · by_cases hy : y = x
      · subst hy; have := hσ.2; simp; omega
      · simpa [Function.update_of_ne hy] using hσ.1 y
    · simp
  · intro σ hσ
    simp only [Finset.mem_filter] at hσ
    have h : σ x - 1 + 1 = σ x := by have := hσ.2; omega
    simp [h]
  · intro σ hσ
    simp
  · intro σ hσ
    simp only [Finset.mem_filter, mem_box] at hσ
    have hle := hσ.1 x
    obtain ⟨k, hk⟩ : ∃ k, σ x = k + 1 := ⟨σ x - 1, by have := hσ.2; omega⟩
    rw [creBoson_succ N x c s σ hle, desBoson_eq]
    have hlt : k < N x := by omega
    have hu : Function.update σ x (k + 1) = σ := by rw [← hk]; simp
    simp [hk, hlt, hu]
    ring

theorem c47_number (N : Fin m → ℕ) (x : Fin m) (c : S → (Fin m → ℕ) → ℝ) (s : S) (σ : Fin m → ℕ)
    (hσ : InBox N σ) : creBoson N x (desBoson N x c) s σ = (σ x : ℝ) * c s σ := by
  rw [creBoson_succ N x _ s σ (hσ x), desBoson_eq]
  have hle := hσ x
  rcases Nat.eq_zero_or_pos (σ x) with h0 | h0
  · simp [h0]
  · obtain ⟨k, hk⟩ : ∃ k, σ x = k + 1 := ⟨σ x - 1, by omega⟩
    have hlt : k < N x := by omega
    have hu : Function.update σ x (k + 1) = σ := by rw [← hk]; simp
    simp only [hk, Nat.add_sub_cancel, Function.update_self, hlt, if_true, Function.update_idem, hu]
    rw [← mul_assoc]
    push_cast
    rw [Real.mul_self_sqrt (by positivity)]

/-- C47: the commutator is the identity below the cut-off and `-N` on the highest state. -/
theorem c47_commutator (N : Fin m → ℕ) (x : Fin m) (c : S → (Fin m → ℕ) → ℝ) (s : S) (σ : Fin m → ℕ)
    (hσ : InBox N σ) :
    desBoson N x (creBoson N x c) s σ - creBoson N x (desBoson N x c) s σ =
      if σ x < N x then c s σ else -(N x : ℝ) * c s σ := by
  rw [c47_number N x c s σ hσ, desBoson_eq]
  have hle := hσ x
  by_cases h : σ x < N x
  · simp only [h, if_true]
    rw [creBoson_succ _ _ _ _ _ (by simp; omega)]
    simp only [Function.update_self, Nat.add_sub_cancel, Function.update_idem, Function.update_eq_self]
    rw [← mul_assoc]
    push_cast
    rw [Real.mul_self_sqrt (by positivity)]
    ring
  · have : σ x = N x := by omega
    simp [this]

/-- C47: operators of different modes commute. -/
theorem c47_different_modes (N : Fin m → ℕ) (x y : Fin m) (hxy : x ≠ y) (c : S → (Fin m → ℕ) → ℝ)
    (s : S) (σ : Fin m → ℕ) (hσ : InBox N σ) :
    creBoson N x (creBoson N y c) s σ = creBoson N y (creBoson N x c) s σ ∧
    desBoson N x (desBoson N y c) s σ = desBoson N y (desBoson N x c) s σ ∧
    creBoson N x (desBoson N y c) s σ = desBoson N y (creBoson N x c) s σ := by
  have hx := hσ x
  have hy := hσ y
  refine ⟨?_, ?_, ?_⟩
  · rw [creBoson_succ N x _ s σ hx, creBoson_succ N y _ s σ hy,
      creBoson_succ N y _ s _ (by rw [Function.update_of_ne hxy.symm]; exact hy),
      creBoson_succ N x _ s _ (by rw [Function.update_of_ne hxy]; exact hx)]
    simp only [Function.update_of_ne hxy, Function.update_of_ne hxy.symm]
    rw [Function.update_comm hxy]
    ring
  · simp only [desBoson_eq, Function.update_of_ne hxy, Function.update_of_ne hxy.symm]
    rw [Function.update_comm hxy]
    split_ifs <;> ring
  · rw [creBoson_succ N x _ s σ hx, desBoson_eq, desBoson_eq,
      creBoson_succ N x _ s _ (by rw [Function.update_of_ne hxy]; exact hx)]
    simp only [Function.update_of_ne hxy, Function.update_of_ne hxy.symm]
    rw [Function.update_comm hxy]
    split_ifs <;> ring

/-- Two modes with cut-offs 2 and 1: a vector on which all of the above is visible. -/
example : InBox ![2, 1] ![1, 1] ∧
    creBoson (S := Unit) ![2, 1] 0 (fun _ _ => 1) () ![1, 1] = 1 ∧
    desBoson (S := Unit) ![2, 1] 1 (fun _ _ => 1) () ![1, 1] = 0 := by
  have h : InBox ![2, 1] ![1, 1] := by
    intro x
    fin_cases x <;> simp
  refine ⟨h, ?_, ?_⟩
  · rw [(c47_matrix_elements _ _ _ _ _ h).1]
    simp
  · rw [(c47_matrix_elements _ _ _ _ _ h).2]
    simp

/-! ## C48: bosonic energy -/

/-- C48: with a one-dimensional `Hbb` and no displacement, multiplication by `Σ ω_x n_x`. -/
theorem c48_one_dimensional (N : Fin m → ℕ) (w : Fin m → ℝ) (c : S → (Fin m → ℕ) → ℝ) (s : S)
    (σ : Fin m → ℕ) (hσ : InBox N σ) :
    contractBB N w none c s σ = (∑ x, w x * (σ x : ℝ)) * c s σ := by
  simp only [contractBB, Option.elim, add_zero, Finset.sum_mul]
  refine Finset.sum_congr rfl fun x _ => ?_
  have hle := hσ x
  rw [Finset.sum_ite_eq]
  by_cases h : σ x = 0
  · simp [h]
  · rw [if_pos (by simp; omega)]
    ring

/-- C48: with a displacement `z` it is the displaced oscillator without its constant. -/
theorem c48_displaced (N : Fin m → ℕ) (w z : Fin m → ℝ) (c : S → (Fin m → ℕ) → ℝ) (s : S)
    (σ : Fin m → ℕ) (hσ : InBox N σ) :
    contractBB N w (some z) c s σ = (∑ x, w x * (σ x : ℝ)) * c s σ +
      ∑ x, w x * z x * (creBoson N x c s σ + desBoson N x c s σ) := by
  rw [← c48_one_dimensional N w c s σ hσ]
  simp only [contractBB, Option.elim, add_zero]
  congr 1
  refine Finset.sum_congr rfl fun x _ => ?_
  simp only [creBoson, desBoson, ← Finset.sum_add_distrib, Finset.mul_sum]
  refine Finset.sum_congr rfl fun i _ => ?_
  split_ifs <;> ring

/-- What C48 asks of the way `kernel` calls it: frequencies on the diagonal of a matrix. -/
def BosonEnergy (N : Fin m → ℕ) (w : Fin m → ℝ) : Prop :=
  ∀ c : Unit → (Fin m → ℕ) → ℝ, ∃ r, contractBB2 N (fun x y => if x = y then w x else 0) c = some r ∧
    ∀ s σ, InBox N σ → r s σ = (∑ x, w x * (σ x : ℝ)) * c s σ

/-- C48 partial: with one mode the kernel's matrix form gives the right energy.  Missing: two or
more modes, where it is false. -/
theorem c48_kernel_partial (N : Fin 1 → ℕ) (w : Fin 1 → ℝ) : BosonEnergy N w := by
  intro c
  refine ⟨_, rfl, fun s σ hσ => ?_⟩
  have h := c48_one_dimensional N w c s σ hσ
  simp only [contractBB, Option.elim, add_zero, Finset.univ_unique, Fin.default_eq_zero,
    Finset.sum_singleton, Fin.isValue] at h ⊢
  simpa using h

/-- C48 fails with two or more modes: if some mode that has bosons is not the last axis' partner of
the right length the kernel raises. -/
theorem c48_kernel_raises (k : ℕ) (N : Fin (k + 2) → ℕ) (w : Fin (k + 2) → ℝ) (x : Fin (k + 2))
    (hx : 1 ≤ N x) (hN : N (lastAxis x) ≠ k + 1) : ¬ BosonEnergy N w := by
  intro h
  obtain ⟨r, hr, -⟩ := h fun _ _ => 1
  simp only [contractBB2] at hr
  rw [if_neg] at hr
  · exact absurd hr (by simp)
  · intro h'
    have := h' x hx
    omega

/-- C48 fails for every set of at least two modes with a boson and positive frequencies, whatever
the cut-offs: either an exception or a wrong energy. -/
theorem c48_kernel_fails (k : ℕ) (N : Fin (k + 2) → ℕ) (w : Fin (k + 2) → ℝ) (hN : ∀ x, 1 ≤ N x)
    (hw : ∀ x, 0 < w x) : ¬ BosonEnergy N w := by
  intro h
  obtain ⟨r, hr, hE⟩ := h fun _ _ => 1
  simp only [contractBB2] at hr
  split_ifs at hr with hs
  rw [Option.some_inj] at hr
  -- one boson in the last mode and none elsewhere
  let σ : Fin (k + 2) → ℕ := fun x => if x = Fin.last (k + 1) then 1 else 0
  have hσ : InBox N σ := by
    intro x
    simp only [σ]
    split_ifs
    · exact hN x
    · exact Nat.zero_le _
  have h1 := hE () σ hσ
  rw [← hr] at h1
  have hr' : ∑ x, w x * (σ x : ℝ) = w (Fin.last (k + 1)) := by
    simp [σ]
  rw [hr'] at h1
  have hl : ∀ x : Fin (k + 2), (∑ i ∈ Finset.Ico 1 (N x + 1), if σ x = i then (1 : ℝ) *
      ((if h : σ (lastAxis x) < k + 2 then (if x = ⟨σ (lastAxis x), h⟩ then w x else 0) else 0) * (i : ℝ))
        else 0) = 0 := by
    intro x
    refine Finset.sum_eq_zero fun i hi => ?_
    simp only [Finset.mem_Ico] at hi
    by_cases hxl : x = Fin.last (k + 1)
    · subst hxl
      have : σ (lastAxis (Fin.last (k + 1))) = 0 := by
        simp [σ, lastAxis, Fin.ext_iff]
      have h3 : (Fin.last (k + 1) : Fin (k + 2)) ≠ 0 := by simp [Fin.ext_iff]
      have h4 : ∀ h, (⟨0, h⟩ : Fin (k + 2)) = 0 := fun _ => rfl
      simp [this, h4, h3]
    · rw [if_neg]
      simp [σ, hxl]
      omega
  simp only [hl, Finset.sum_const_zero] at h1
  have := hw (Fin.last (k + 1))
  linarith

/-- Two modes of frequency one and two with one boson each: no exception, wrong energy. -/
example : (∀ x : Fin 2, 1 ≤ (![1, 1] : Fin 2 → ℕ) x) ∧ (∀ x : Fin 2, (0 : ℝ) < ![1, 2] x) ∧
    ∀ x : Fin 2, (![1, 1] : Fin 2 → ℕ) (lastAxis x) + 1 = 2 := by
  refine ⟨?_, ?_, ?_⟩ <;> intro x <;> fin_cases x <;> simp [lastAxis]

end Boson
end OpenMS.QedFci
