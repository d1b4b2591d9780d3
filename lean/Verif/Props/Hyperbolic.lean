import Verif.Model.Hyperbolic
import Mathlib.Tactic

namespace OpenMS.Hyperbolic

open Complex

variable {n : Type*} [Fintype n]

open Classical in
/-- The conductivity of the documentation with Drude weights `D`:
`i D_j / (ω + iη) + s_j [Θ(ω - ω_j) + i/π ln |(ω - ω_j)/(ω + ω_j)|]`. -/
noncomputable def docSigma (D : n → ℝ) (p : Params n) (w : ℝ) (i : n) : ℂ :=
  I * D i / (w + I * p.eta) + p.s i * ((if w > p.w0 i then 1 else 0) +
    I / Real.pi * Real.log |(w - p.w0 i) / (w + p.w0 i)|)

omit [Fintype n] in
theorem drude_re (p : Params n) (w : ℝ) (i : n) :
    (drude p w i).re = p.wp i * p.eta / (w ^ 2 + p.eta ^ 2) := by
  simp [drude, Complex.div_re, Complex.normSq_apply]
  ring

omit [Fintype n] in
theorem logPart_re (p : Params n) (w : ℝ) (i : n) : (logPart p w i).re = 0 := by
  have : logPart p w i = ((Real.log |(w - p.w0 i) / (w + p.w0 i)| / Real.pi : ℝ) : ℂ) * I := by
    simp only [logPart]
    push_cast
    ring
  rw [this]
  simp only [mul_re, ofReal_re, ofReal_im, I_re, I_im]
  ring

theorem row_re {p : Params n} {w : ℝ} {σ : n → ℂ} (h : row p w = some σ) (i : n) :
    (σ i).re = p.wp i * p.eta / (w ^ 2 + p.eta ^ 2) + steps p w * p.s i := by
  unfold row at h
  split_ifs at h
  rw [← Option.some.inj h]
  simp only [add_re, drude_re, mul_re, add_im, natCast_re, natCast_im, ofReal_re, ofReal_im, logPart_re]
  ring

/-- No component gives energy back: the real part is not negative. -/
theorem passive {p : Params n} (hw : ∀ i, 0 ≤ p.wp i) (hs : ∀ i, 0 ≤ p.s i) (he : 0 ≤ p.eta)
    {ws : List ℝ} {σ : n → ℂ} (h : some σ ∈ conductivity p ws) (i : n) : 0 ≤ (σ i).re := by
  obtain ⟨w, -, hr⟩ := List.mem_map.1 h
  rw [row_re hr]
  have := hw i
  have := hs i
  positivity

/-- Agreement with the documentation, up to the choice of Drude weight: the number of plasmon
frequencies passed must be one above the interband frequency and zero below. -/
theorem row_eq_doc_iff {p : Params n} {w : ℝ} {σ : n → ℂ} (h : row p w = some σ) (i : n) :
    σ i = docSigma p.wp p w i ↔ p.s i = 0 ∨ (w > p.w0 i ∧ steps p w = 1) ∨
      (¬ w > p.w0 i ∧ steps p w = 0) := by
  classical
  unfold row at h
  split_ifs at h
  rw [← Option.some.inj h]
  have e : drude p w i + (logPart p w i + steps p w) * p.s i - docSigma p.wp p w i =
      ((p.s i * ((steps p w : ℝ) - if w > p.w0 i then 1 else 0) : ℝ) : ℂ) := by
    simp only [drude, logPart, docSigma]
    split_ifs <;> push_cast <;> ring
  rw [← sub_eq_zero, e, ofReal_eq_zero, mul_eq_zero]
  refine or_congr Iff.rfl ?_
  by_cases hh : w > p.w0 i
  · simp only [hh, if_true, true_and, not_true, false_and, or_false, sub_eq_zero]
    norm_cast
  · simp only [hh, if_false, false_and, not_false_eq_true, true_and, false_or, sub_zero]
    norm_cast

/-- One component whose two frequencies are on the same side of `w`. -/
theorem row_partial {p : Params (Fin 1)} {w : ℝ} {σ : Fin 1 → ℂ} (h : row p w = some σ)
    (hw : w > p.wp 0 ↔ w > p.w0 0) : σ 0 = docSigma p.wp p w 0 := by
  classical
  refine (row_eq_doc_iff h 0).2 (.inr ?_)
  unfold steps
  by_cases hh : w > p.w0 0
  · refine .inl ⟨hh, ?_⟩
    rw [Finset.filter_true_of_mem]
    · rfl
    · intro k _
      rw [Subsingleton.elim k 0]
      exact hw.2 hh
  · refine .inr ⟨hh, ?_⟩
    rw [Finset.filter_false_of_mem]
    · rfl
    · intro k _
      rw [Subsingleton.elim k 0]
      exact fun h' => hh (hw.1 h')

/-- Below its interband frequency a component absorbs by interband transitions as soon as the plasmon
frequency of any component is passed, and with two passed the absorption above it is doubled. -/
theorem row_fails {p : Params n} {w : ℝ} {σ : n → ℂ} (h : row p w = some σ) {i : n} (hs : p.s i ≠ 0)
    (hw : (¬ w > p.w0 i ∧ ∃ k, w > p.wp k) ∨ (w > p.w0 i ∧ ∃ k l, k ≠ l ∧ w > p.wp k ∧ w > p.wp l)) :
    σ i ≠ docSigma p.wp p w i := by
  classical
  rw [Ne, row_eq_doc_iff h]
  rintro (h0 | ⟨ha, hb⟩ | ⟨ha, hb⟩)
  · exact hs h0
  · rcases hw with ⟨hn, -⟩ | ⟨-, k, l, hkl, hk, hl⟩
    · exact hn ha
    · unfold steps at hb
      rw [Finset.card_eq_one] at hb
      obtain ⟨a, hb⟩ := hb
      have h1 : k ∈ ({a} : Finset n) := by rw [← hb]; simp [hk]
      have h2 : l ∈ ({a} : Finset n) := by rw [← hb]; simp [hl]
      rw [Finset.mem_singleton] at h1 h2
      exact hkl (h1.trans h2.symm)
  · rcases hw with ⟨-, k, hk⟩ | ⟨hn, -⟩
    · unfold steps at hb
      rw [Finset.card_eq_zero] at hb
      have h1 : k ∈ (∅ : Finset n) := by rw [← hb]; simp [hk]
      simp at h1
    · exact ha hn

/-- Plasmon frequencies 1 and 2, interband frequencies 3 and 4, at 3/2. -/
example : ∃ σ, row (n := Fin 2) ⟨![1, 2], ![3, 4], 1, 0.1⟩ (3 / 2) = some σ ∧
    σ 0 ≠ docSigma ![1, 2] ⟨![1, 2], ![3, 4], 1, 0.1⟩ (3 / 2) 0 := by
  have hr : ∃ σ, row (n := Fin 2) ⟨![1, 2], ![3, 4], 1, 0.1⟩ (3 / 2) = some σ := by
    unfold row
    rw [if_neg]
    · exact ⟨_, rfl⟩
    · rintro (h | ⟨i, h⟩)
      · norm_num at h
      · fin_cases i <;> norm_num at h
  obtain ⟨σ, hσ⟩ := hr
  refine ⟨σ, hσ, row_fails hσ (by norm_num) (.inl ⟨by norm_num, 0, by norm_num⟩)⟩

/-! ### Weight of the free electrons -/

/-- The plasmon frequency is `ħ` times the root of `e² n / (ε₀ m)`. -/
theorem plasmonFreq_sq (k : Consts) {density mass : ℝ}
    (h : 0 ≤ density * 1e27 / (k.eps0 * mass * k.eMass)) :
    plasmonFreq k density mass ^ 2 =
      k.hbar ^ 2 * (k.eSI ^ 2 * (density * 1e27) / (k.eps0 * (mass * k.eMass))) := by
  unfold plasmonFreq
  rw [mul_pow, Real.sq_sqrt h]
  ring

/-- The weight `e² n / m` is proportional to the density; the one of the code, the plasmon frequency,
to its root. -/
theorem weight_fails {k : Consts} (hk : 0 < k.eps0 ∧ 0 < k.eMass ∧ 0 < k.hbar ∧ 0 < k.eSI)
    {density mass : ℝ} (hd : 0 < density) (hm : 0 < mass) {t : ℝ} (ht : 0 < t) :
    plasmonFreq k (t * density) mass = t * plasmonFreq k density mass ↔ t = 1 := by
  obtain ⟨h1, h2, h3, h4⟩ := hk
  have hp : 0 < plasmonFreq k density mass := by
    unfold plasmonFreq
    positivity
  have e : plasmonFreq k (t * density) mass = Real.sqrt t * plasmonFreq k density mass := by
    unfold plasmonFreq
    rw [show t * density * 1e27 / (k.eps0 * mass * k.eMass) =
      t * (density * 1e27 / (k.eps0 * mass * k.eMass)) by ring, Real.sqrt_mul ht.le]
    ring
  rw [e, mul_left_inj' hp.ne']
  constructor
  · intro h
    have h5 := Real.mul_self_sqrt ht.le
    rw [h] at h5
    have : t * (t - 1) = 0 := by linarith
    rcases mul_eq_zero.1 this with h6 | h6
    · exact absurd h6 ht.ne'
    · linarith
  · rintro rfl
    exact Real.sqrt_one

end OpenMS.Hyperbolic
