import Verif.Model.PropagatorBuild
import Verif.Props.Step
import Mathlib.Tactic

/-!
# C110: the force bias of the trial
-/

namespace OpenMS.Step

open Matrix OpenMS.Propagators OpenMS.Green OpenMS.PropBuild

variable {p ia ib : Type*} [Fintype p] [Fintype ia] [DecidableEq ia] [Fintype ib]
  [DecidableEq ib] {nf : ℕ}

/-- Specification: the density matrix of the trial, both spins together. -/
noncomputable def density (two : Bool) (Ta : Matrix p ia ℂ) (Tb : Matrix p ib ℂ) : Matrix p p ℂ :=
  if two then Ta * Taᴴ + Tb * Tbᴴ else (2 : ℂ) • (Ta * Taᴴ)

omit [DecidableEq ia] [DecidableEq ib] in
/-- The mean-field values of the code are `Σ L_pq ρ_pq`. -/
theorem builtLbar_eq (two : Bool) (L : Fin nf → Matrix p p ℂ) (Ta : Matrix p ia ℂ)
    (Tb : Matrix p ib ℂ) (γ : Fin nf) :
    builtLbar two L Ta Tb γ = ∑ a, ∑ b, L γ a b * density two Ta Tb a b := by
  cases two with
  | false => simp [builtLbar, PropBuild.trace, rhoMf, density]
  | true =>
    simp only [builtLbar, PropBuild.trace, rhoMf, density, if_true]
    have : (2 / ((2 : ℕ) : ℂ)) • (fromCols Ta Tb * (fromCols Ta Tb)ᴴ) = Ta * Taᴴ + Tb * Tbᴴ := by
      rw [conjTranspose_fromCols_eq_fromRows_conjTranspose, fromCols_mul_fromRows]
      norm_num
    rw [this]

theorem ghalf_trial {i : Type*} [Fintype i] [DecidableEq i] (T : Matrix p i ℂ) (hT : Tᴴ * T = 1) :
    ghalf T T = some T := by
  have ho : ovlpMatrix T T = 1 := by
    have : ovlpMatrix T T = (Tᴴ * T)ᵀ := by
      unfold ovlpMatrix
      rw [Matrix.transpose_mul]
      rfl
    rw [this, hT, Matrix.transpose_one]
  unfold ghalf Green.inv
  rw [ho, if_neg (by simp)]
  simp [Matrix.one_apply]
  rfl

theorem vbias_trial {i : Type*} [Fintype i] (T : Matrix p i ℂ) (L : Matrix p p ℂ) :
    vbias (halfRotate T L) T = ∑ a, ∑ b, L a b * (T * Tᴴ) b a := by
  simp only [vbias, halfRotate, Matrix.of_apply, conj, Matrix.map_apply, Matrix.mul_apply,
    Matrix.conjTranspose_apply, Finset.mul_sum]
  rw [Finset.sum_comm (s := (Finset.univ : Finset p)) (t := (Finset.univ : Finset p))
    (f := fun a b => ∑ k, L a b * (T b k * star (T a k)))]
  refine Finset.sum_congr rfl fun q _ => ?_
  rw [Finset.sum_comm]
  refine Finset.sum_congr rfl fun a _ => Finset.sum_congr rfl fun k _ => ?_
  simp only [Complex.star_def]
  ring

omit [DecidableEq ia] [DecidableEq ib] in
theorem getVbias_trial (two : Bool) (L : Fin nf → Matrix p p ℂ) (Ta : Matrix p ia ℂ)
    (Tb h : Matrix p ib ℂ) (hh : two = true → h = Tb) (γ : Fin nf) :
    getVbias L Ta Ta (beta two (Tb, h)) γ = ∑ a, ∑ b, L γ a b * density two Ta Tb b a := by
  cases two with
  | false =>
    simp only [getVbias, beta, density, Bool.false_eq_true, if_false, vbias_trial,
      Matrix.smul_apply, smul_eq_mul, Finset.mul_sum]
    refine Finset.sum_congr rfl fun a _ => Finset.sum_congr rfl fun b _ => by ring
  | true =>
    rw [hh rfl]
    simp only [getVbias, beta, density, if_true, vbias_trial, Matrix.add_apply, mul_add,
      Finset.sum_add_distrib]
    ring

/-- The trial as a walker has Green's functions, and its force bias before bounding is
`-i √dt Σ_pq L_pq (ρ_qp - ρ_pq)`. -/
theorem trial_bias (S : Setup p ia ib (Fin nf)) (ha : S.Taᴴ * S.Ta = 1)
    (hb : S.two = true → S.Tbᴴ * S.Tb = 1)
    (hl : S.lbar = builtLbar S.two S.L S.Ta S.Tb) :
    ∃ h, halves S S.Ta S.Tb = some h ∧ ∀ γ, xbar S h γ = rescaleFbias S.bound
      (-(Complex.I * (Real.sqrt S.dt : ℂ)) *
        ∑ a, ∑ b, (S.L γ a b - S.L γ b a) * density S.two S.Ta S.Tb b a) := by
  have key : ∀ h : Matrix p ib ℂ, (S.two = true → h = S.Tb) → ∀ γ,
      xbarRaw S.dt (getVbias S.L S.Ta S.Ta (beta S.two (S.Tb, h))) S.lbar γ =
      -(Complex.I * (Real.sqrt S.dt : ℂ)) *
        ∑ a, ∑ b, (S.L γ a b - S.L γ b a) * density S.two S.Ta S.Tb b a := by
    intro h hh γ
    unfold xbarRaw mfShift
    rw [getVbias_trial S.two S.L S.Ta S.Tb h hh γ, hl, builtLbar_eq]
    have : ∑ a, ∑ b, (S.L γ a b - S.L γ b a) * density S.two S.Ta S.Tb b a =
        (∑ a, ∑ b, S.L γ a b * density S.two S.Ta S.Tb b a) -
        ∑ a, ∑ b, S.L γ a b * density S.two S.Ta S.Tb a b := by
      rw [Finset.sum_comm (f := fun a b => S.L γ a b * density S.two S.Ta S.Tb a b)]
      simp only [sub_mul, Finset.sum_sub_distrib]
    rw [this]
    ring
  unfold halves
  rw [ghalf_trial S.Ta ha]
  by_cases h2 : S.two = true
  · simp only [h2, if_true, ghalf_trial S.Tb (hb h2), Option.map_some]
    refine ⟨_, rfl, fun γ => ?_⟩
    have := key S.Tb (fun _ => rfl) γ
    unfold xbar
    dsimp only
    rw [this, h2]
  · simp only [h2]
    refine ⟨_, rfl, fun γ => ?_⟩
    have := key 0 (fun h => absurd h h2) γ
    unfold xbar
    dsimp only
    rw [this]
    simp [h2]

theorem rescale_zero_iff (bound : ℝ) (f : ℂ) : rescaleFbias bound f = 0 ↔ f = 0 := by
  unfold rescaleFbias
  split_ifs with h1 h2
  · have : (‖f‖ : ℂ) ≠ 0 := by
      intro h0
      rw [Complex.ofReal_eq_zero] at h0
      rw [h0] at h2
      norm_num at h2
    rw [div_eq_zero_iff]
    tauto
  · rfl
  · rfl

/-- For symmetric fields a walker which is the orthonormal trial has no force bias, whatever the
bound, the time step and the complex phases of the orbitals. -/
theorem trial_bias_zero (S : Setup p ia ib (Fin nf)) (ha : S.Taᴴ * S.Ta = 1)
    (hb : S.two = true → S.Tbᴴ * S.Tb = 1)
    (hl : S.lbar = builtLbar S.two S.L S.Ta S.Tb) (hs : ∀ γ, (S.L γ)ᵀ = S.L γ) :
    ∃ h, halves S S.Ta S.Tb = some h ∧ ∀ γ, xbar S h γ = 0 := by
  obtain ⟨h, h1, h2⟩ := trial_bias S ha hb hl
  refine ⟨h, h1, fun γ => ?_⟩
  rw [h2 γ, rescale_zero_iff]
  have : ∀ a b, S.L γ a b - S.L γ b a = 0 := fun a b => by
    have := congrFun (congrFun (hs γ) b) a
    rw [Matrix.transpose_apply] at this
    rw [this, sub_self]
  simp [this]

/-- The fields of a system have this property for every trial (already for every trial with one
orbital) only if they are symmetric: the code contracts `ltensor` with `rho_mf` where the force
bias contracts it with the transpose. -/
theorem trial_bias_iff [DecidableEq p] (L : Fin nf → Matrix p p ℂ) :
    (∀ S : Setup p (Fin 1) (Fin 1) (Fin nf), S.two = false → 0 < S.dt → S.L = L →
      S.Taᴴ * S.Ta = 1 → S.lbar = builtLbar S.two S.L S.Ta S.Tb →
      ∀ h, halves S S.Ta S.Tb = some h → ∀ γ, xbar S h γ = 0) ↔ ∀ γ, (L γ)ᵀ = L γ := by
  constructor
  · intro H γ
    ext a b
    rw [Matrix.transpose_apply]
    by_contra hne
    have hab : a ≠ b := fun h => hne (by rw [h])
    let r : ℂ := ((Real.sqrt 2)⁻¹ : ℝ)
    have hr : r * r = 1 / 2 := by
      have : ((Real.sqrt 2)⁻¹ : ℝ) * (Real.sqrt 2)⁻¹ = 1 / 2 := by
        rw [← mul_inv, Real.mul_self_sqrt (by norm_num)]; norm_num
      show (((Real.sqrt 2)⁻¹ : ℝ) : ℂ) * (((Real.sqrt 2)⁻¹ : ℝ) : ℂ) = 1 / 2
      rw [← Complex.ofReal_mul, this]
      norm_num
    have hsr : star r = r := Complex.conj_ofReal _
    let v : p → ℂ := fun c => if c = a then r else if c = b then Complex.I * r else 0
    let T : Matrix p (Fin 1) ℂ := Matrix.of fun c _ => v c
    have hva : v a = r := if_pos rfl
    have hvb : v b = Complex.I * r := by simp [v, hab.symm]
    have hv0 : ∀ c, c ≠ a → c ≠ b → v c = 0 := fun c h1 h2 => by simp [v, h1, h2]
    have two_sum : ∀ f : p → ℂ, (∀ c, c ≠ a → c ≠ b → f c = 0) → ∑ c, f c = f a + f b := by
      intro f hf
      rw [← Finset.sum_pair hab]
      symm
      apply Finset.sum_subset (Finset.subset_univ _)
      intro c _ hc
      simp only [Finset.mem_insert, Finset.mem_singleton, not_or] at hc
      exact hf c hc.1 hc.2
    have hT : Tᴴ * T = 1 := by
      ext i j
      rw [Subsingleton.elim i j, Matrix.one_apply_eq, Matrix.mul_apply]
      simp only [Matrix.conjTranspose_apply, T, Matrix.of_apply]
      rw [two_sum _ (fun c h1 h2 => by rw [hv0 c h1 h2, mul_zero]), hva, hvb, star_mul', hsr,
        Complex.star_def, Complex.conj_I]
      linear_combination 2 * hr - r * r * Complex.I_mul_I
    let S : Setup p (Fin 1) (Fin 1) (Fin nf) :=
      ⟨false, 1, 0, 1, none, fun _ => 1, L, builtLbar false L T T, T, T⟩
    obtain ⟨h, h1, h2⟩ := trial_bias S hT (by simp [S]) rfl
    have h0 := H S rfl (by simp [S]) rfl hT rfl h h1 γ
    rw [h2 γ, rescale_zero_iff] at h0
    have hd : ∀ c d, density S.two S.Ta S.Tb c d = 2 * (v c * star (v d)) := by
      intro c d
      simp [S, density, T, Matrix.mul_apply]
    have hsum : ∑ c, ∑ d, (S.L γ c d - S.L γ d c) * density S.two S.Ta S.Tb d c =
        2 * Complex.I * (L γ a b - L γ b a) := by
      simp only [hd]
      rw [two_sum _ (fun c h1 h2 => Finset.sum_eq_zero fun d _ => by
          rw [hv0 c h1 h2, star_zero, mul_zero, mul_zero, mul_zero]),
        two_sum _ (fun d h1 h2 => by rw [hv0 d h1 h2, zero_mul, mul_zero, mul_zero]),
        two_sum _ (fun d h1 h2 => by rw [hv0 d h1 h2, zero_mul, mul_zero, mul_zero]),
        hva, hvb, star_mul', hsr, Complex.star_def, Complex.conj_I]
      show (L γ a a - L γ a a) * _ + (L γ a b - L γ b a) * _ + ((L γ b a - L γ a b) * _ +
        (L γ b b - L γ b b) * _) = _
      linear_combination 4 * Complex.I * (L γ a b - L γ b a) * hr
    rw [hsum] at h0
    have hI := Complex.I_ne_zero
    simp [S, hI, sub_eq_zero] at h0
    exact hne h0.symm
  · intro hs S h2 _ hL ha hl h hh γ
    obtain ⟨h', h1', h2'⟩ := trial_bias_zero S ha (by simp [h2]) hl (by rw [hL]; exact hs)
    rw [hh] at h1'
    rw [Option.some.inj h1']
    exact h2' γ

/-- A first step from the trial: with symmetric fields the walker moves with the drawn fields
themselves, and the force-bias factor of the weight is one (`cfb = 0`). -/
theorem trial_first_step (S : Setup p ia ib (Fin nf)) (ha : S.Taᴴ * S.Ta = 1)
    (hb : S.two = true → S.Tbᴴ * S.Tb = 1)
    (hl : S.lbar = builtLbar S.two S.L S.Ta S.Tb) (hs : ∀ γ, (S.L γ)ᵀ = S.L γ)
    (x : Fin nf → ℝ) (es : ℂ) (w w' : Walker p ia ib) (hwa : w.phia = S.Ta) (hwb : w.phib = S.Tb)
    (hw : step S es x w = .ok w') :
    w'.phia = S.expH 0 * expOpOne
      ((Complex.I * (Real.sqrt S.dt : ℂ)) • ∑ γ, (x γ : ℂ) • S.L γ) (S.expH 0 * S.Ta) S.order := by
  obtain ⟨h, h1, h2⟩ := trial_bias_zero S ha hb hl hs
  unfold step at hw
  rw [hwa, hwb, h1] at hw
  dsimp only at hw
  have hf : fieldOp S x (xbar S h) =
      (Complex.I * (Real.sqrt S.dt : ℂ)) • ∑ γ, (x γ : ℂ) • S.L γ := by
    unfold fieldOp xshift
    simp [h2]
  rw [hf] at hw
  generalize (if S.two then move S _ (S.expH 1) S.Tb else S.Tb) = b at hw
  split_ifs at hw with h0
  generalize updateWeight _ _ _ _ _ _ = u at hw
  cases u with
  | error e => exact absurd hw (by simp)
  | ok r =>
    simp only [Except.ok.injEq] at hw
    rw [← hw]
    rfl

/-- A trial with one complex orbital and the symmetric field `σ_x`. -/
noncomputable def orbital : Setup (Fin 2) (Fin 1) (Fin 1) (Fin 1) where
  two := false
  dt := 1
  order := 1
  bound := 1
  scheme := none
  expH := fun _ => 1
  L := fun _ => !![0, 1; 1, 0]
  lbar := builtLbar (i' := Fin 1) false (fun _ => !![0, 1; 1, 0])
    !![(3 / 5 : ℂ); 4 / 5 * Complex.I] 0
  Ta := !![(3 / 5 : ℂ); 4 / 5 * Complex.I]
  Tb := 0

example : ∃ h, halves orbital orbital.Ta orbital.Tb = some h ∧ ∀ γ, xbar orbital h γ = 0 := by
  refine trial_bias_zero orbital ?_ (by simp [orbital]) rfl ?_
  · ext i j
    rw [Subsingleton.elim i 0, Subsingleton.elim j 0]
    have h3 : (starRingEnd ℂ) 3 = 3 := Complex.conj_ofNat 3
    have h4 : (starRingEnd ℂ) 4 = 4 := Complex.conj_ofNat 4
    have h5 : (starRingEnd ℂ) 5 = 5 := Complex.conj_ofNat 5
    simp [orbital, Matrix.mul_apply, Fin.sum_univ_two, h3, h4, h5]
    linear_combination (-16 / 25) * Complex.I_mul_I
  · intro γ
    ext i j
    fin_cases i <;> fin_cases j <;> rfl

end OpenMS.Step
