import Verif.Props.Step

/-!
# C109: the weight of a walker along a run
-/

namespace OpenMS.Step

open Matrix OpenMS.Propagators OpenMS.Green

variable {p ia ib g : Type*} [Fintype p] [Fintype ia] [DecidableEq ia] [Fintype ib]
  [DecidableEq ib] [Fintype g]

/-- Specification: a step from `w` to `w'` with importance ratio `R`: the ratio of the overlaps times
`exp(cfb + cmf)`, where the energy `-log|R| / dt` is inside the window around the shift.  `c` is the
imaginary part of `cfb`. -/
structure Ratio (S : Setup p ia ib g) (eshift : ℂ) (x : g → ℝ) (w w' : Walker p ia ib) (R : ℂ)
    (c : ℝ) : Prop where
  step : step S eshift x w = .ok w'
  ratio : ∃ k, halves S w.phia w.phib = some k ∧ c = (cfb x (xbar S k)).im ∧
    R = ovlp S w'.phia w'.phib / ovlp S w.phia w.phib *
      Complex.exp (cfb x (xbar S k) + cmf S.dt x (xbar S k) S.lbar)
  inside : |-Real.log ‖R‖ / S.dt - eshift.re| ≤ Real.sqrt (2 / S.dt)

omit [Fintype g] in
theorem ovlp_of_halves {S : Setup p ia ib g} {a : Matrix p ia ℂ} {b : Matrix p ib ℂ}
    {k : Matrix p ia ℂ × Matrix p ib ℂ} (h : halves S a b = some k) : ovlp S a b ≠ 0 := by
  unfold halves ghalf at h
  have ha : (ovlpMatrix S.Ta a).det ≠ 0 := by
    intro h0
    rw [show Green.inv (ovlpMatrix S.Ta a) = none by unfold Green.inv; rw [if_pos h0]] at h
    simp at h
  unfold ovlp beta
  cases ht : S.two with
  | false => simpa [overlap] using ha
  | true =>
    have hb : (ovlpMatrix S.Tb b).det ≠ 0 := by
      intro h0
      rw [show Green.inv (ovlpMatrix S.Tb b) = none by unfold Green.inv; rw [if_pos h0], ht] at h
      cases hc : Option.map (fun m => Matrix.of fun a_1 b => ∑ j, m b j * a a_1 j)
        (Green.inv (ovlpMatrix S.Ta a)) with
      | none => rw [hc] at h; simp at h
      | some v => rw [hc] at h; simp at h
    simpa [overlap] using ⟨ha, hb⟩

/-- **C109, one step.** With the hybrid scheme and an energy inside the window, the stored energy is
`-log|R| / dt`, and the weight gets the modulus of the importance ratio, the shift, the cosine
projection and a factor of the two hybrid energies. -/
theorem step_weight {S : Setup p ia ib g} {eshift : ℂ} {x : g → ℝ} {w w' : Walker p ia ib} {R : ℂ}
    {c : ℝ} (hdt : 0 < S.dt) (hs : S.scheme = some "hybrid") (h : Ratio S eshift x w w' R c) :
    w'.ehybrid = -Real.log ‖R‖ / S.dt ∧
    w'.weight * Real.exp (-(S.dt / 2) * w'.ehybrid) =
      w.weight * Real.exp (-(S.dt / 2) * w.ehybrid) *
        (‖R‖ * Real.exp (S.dt * eshift.re) * max 0 (Real.cos c)) := by
  obtain ⟨hst, ⟨k, hk, hc, hR⟩, hin⟩ := h
  obtain ⟨k', hk', _, _, hne, hup, _⟩ := step_ok hst
  rw [hk] at hk'
  obtain rfl : k = k' := Option.some.inj hk'
  have h0 : ovlp S w.phia w.phib ≠ 0 := ovlp_of_halves hk
  have hRne : R ≠ 0 := by
    rw [hR]
    exact mul_ne_zero (div_ne_zero hne h0) (Complex.exp_ne_zero _)
  have hlog : Real.log ‖R‖ = (Complex.log (ovlp S w'.phia w'.phib / ovlp S w.phia w.phib) +
      cfb x (xbar S k) + cmf S.dt x (xbar S k) S.lbar).re := by
    rw [hR, norm_mul, Complex.norm_exp, Real.log_mul (by
      rw [norm_ne_zero_iff]; exact div_ne_zero hne h0) (Real.exp_ne_zero _), Real.log_exp]
    simp only [Complex.add_re, Complex.log_re]
    ring
  simp only [updateWeight, hs, if_true, Except.ok.injEq] at hup
  have he : w'.ehybrid = -Real.log ‖R‖ / S.dt := by
    have := congrArg Prod.snd hup
    simp only [updateHybrid, hybridEnergy] at this
    rw [← this, Complex.div_ofReal_re, Complex.neg_re, ← hlog]
    rw [abs_le] at hin
    exact clipTo_eq _ _ _ (by unfold ebound; linarith [hin.1]) (by unfold ebound; linarith [hin.2])
  refine ⟨he, ?_⟩
  have hw := updateHybrid_eq S.dt w.weight w.ehybrid (ovlp S w.phia w.phib)
    (ovlp S w'.phia w'.phib) (cfb x (xbar S k)) (cmf S.dt x (xbar S k) S.lbar) eshift
  rw [hup] at hw
  simp only at hw
  have hnR : ‖R‖ = Real.exp (-(S.dt * w'.ehybrid)) := by
    rw [he, mul_div_cancel₀ _ hdt.ne', neg_neg, Real.exp_log (norm_pos_iff.2 hRne)]
  rw [hw, hnR, ← hc]
  have e1 : Real.exp (-S.dt * (1 / 2 * (w'.ehybrid + w.ehybrid) - eshift.re)) *
      Real.exp (-(S.dt / 2) * w'.ehybrid) =
      Real.exp (-(S.dt / 2) * w.ehybrid) * (Real.exp (-(S.dt * w'.ehybrid)) *
        Real.exp (S.dt * eshift.re)) := by
    rw [← Real.exp_add, ← Real.exp_add, ← Real.exp_add]
    congr 1
    ring
  linear_combination w.weight * max 0 (Real.cos c) * e1

/-- Specification: a sequence of events without clipping; `rho` is the product of the importance
ratios, shifts and projections. -/
inductive Path (S : Setup p ia ib g) (qr : Walker p ia ib → Walker p ia ib) :
    Walker p ia ib → List (Event g) → ℝ → Prop
  | nil (w) : Path S qr w [] 1
  | ortho {w es rho} : Path S qr (qr w) es rho → Path S qr w (.ortho :: es) rho
  | prop {w w' es rho eshift x R c} : Ratio S eshift x w w' R c → Path S qr w' es rho →
      Path S qr w (.prop eshift x :: es)
        (‖R‖ * Real.exp (S.dt * eshift.re) * max 0 (Real.cos c) * rho)

/-- **C109.** Along a run the weight is the product of the importance ratios, the shifts and the
projections; the hybrid energies of neighbouring steps cancel except for the first and the last. -/
theorem run_weight {S : Setup p ia ib g} {qr : Walker p ia ib → Walker p ia ib}
    (hdt : 0 < S.dt) (hs : S.scheme = some "hybrid")
    (hq : ∀ w, (qr w).weight = w.weight ∧ (qr w).ehybrid = w.ehybrid)
    {events : List (Event g)} {w w' : Walker p ia ib} {out : List (ℝ × ℝ)} {rho : ℝ}
    (h : run S qr events w = .ok (w', out)) (hp : Path S qr w events rho) :
    w'.weight * Real.exp (-(S.dt / 2) * w'.ehybrid) =
      w.weight * Real.exp (-(S.dt / 2) * w.ehybrid) * rho := by
  induction hp generalizing out with
  | nil w =>
    simp only [run, Except.ok.injEq, Prod.mk.injEq] at h
    rw [h.1, mul_one]
  | @ortho w es rho _ ih =>
    have := ih h
    rwa [(hq w).1, (hq w).2] at this
  | @prop w w1 es rho eshift x R c hr _ ih =>
    simp only [run, hr.step] at h
    split at h
    · simp at h
    · rename_i w2 l heq
      simp only [Except.ok.injEq, Prod.mk.injEq] at h
      obtain ⟨rfl, -⟩ := h
      rw [ih heq, (step_weight hdt hs hr).2]
      ring

/-- Specification: a sequence of steps without clipping; `sigma` is the product of the moduli of
`exp(cfb + cmf)`, the shifts and the projections, without the overlaps. -/
inductive Steps (S : Setup p ia ib g) :
    Walker p ia ib → List (ℂ × (g → ℝ)) → ℝ → Prop
  | nil (w) : Steps S w [] 1
  | prop {w w' es sigma eshift x R c k} : Ratio S eshift x w w' R c →
      halves S w.phia w.phib = some k → Steps S w' es sigma →
      Steps S w ((eshift, x) :: es)
        (‖Complex.exp (cfb x (xbar S k) + cmf S.dt x (xbar S k) S.lbar)‖ *
          Real.exp (S.dt * eshift.re) * max 0 (Real.cos c) * sigma)

/-- **C109.** Without orthogonalisation the overlap ratios multiply to the ratio of the last and the
first overlap: weight and overlap of a walker belong together at every time. -/
theorem run_overlap {S : Setup p ia ib g} {qr : Walker p ia ib → Walker p ia ib}
    (hdt : 0 < S.dt) (hs : S.scheme = some "hybrid")
    {steps : List (ℂ × (g → ℝ))} {w w' : Walker p ia ib} {out : List (ℝ × ℝ)} {sigma : ℝ}
    (h0 : ovlp S w.phia w.phib ≠ 0)
    (h : run S qr (steps.map fun s => .prop s.1 s.2) w = .ok (w', out)) (hp : Steps S w steps sigma) :
    w'.weight * Real.exp (-(S.dt / 2) * w'.ehybrid) / ‖ovlp S w'.phia w'.phib‖ =
      w.weight * Real.exp (-(S.dt / 2) * w.ehybrid) / ‖ovlp S w.phia w.phib‖ * sigma := by
  induction hp generalizing out with
  | nil w =>
    simp only [List.map_nil, run, Except.ok.injEq, Prod.mk.injEq] at h
    rw [h.1, mul_one]
  | @prop w w1 es sigma eshift x R c k hr hk _ ih =>
    simp only [List.map_cons, run, hr.step] at h
    split at h
    · simp at h
    · rename_i w2 l heq
      simp only [Except.ok.injEq, Prod.mk.injEq] at h
      obtain ⟨rfl, -⟩ := h
      obtain ⟨_, _, _, _, hne, _, _⟩ := step_ok hr.step
      obtain ⟨k', hk', _, hR⟩ := hr.ratio
      rw [hk] at hk'
      obtain rfl : k = k' := Option.some.inj hk'
      rw [ih hne heq, (step_weight hdt hs hr).2, hR, norm_mul, norm_div]
      have n0 : ‖ovlp S w.phia w.phib‖ ≠ 0 := norm_ne_zero_iff.2 h0
      have n1 : ‖ovlp S w1.phia w1.phib‖ ≠ 0 := norm_ne_zero_iff.2 hne
      field_simp

/-- Every step with the hybrid scheme is inside the window for a suitable shift. -/
theorem ratio_exists (S : Setup p ia ib g) (hs : S.scheme = some "hybrid") (x : g → ℝ)
    (w : Walker p ia ib) (k : Matrix p ia ℂ × Matrix p ib ℂ) (hk : halves S w.phia w.phib = some k)
    (hne : ovlp S (move S (fieldOp S x (xbar S k)) (S.expH 0) w.phia)
      (if S.two then move S (fieldOp S x (xbar S k)) (S.expH 1) w.phib else w.phib) ≠ 0) :
    ∃ (w' : Walker p ia ib) (R : ℂ) (e : ℝ), Ratio S e x w w' R (cfb x (xbar S k)).im := by
  have hstep : ∀ e : ℝ, ∃ w', step S e x w = .ok w' ∧
      w'.phia = move S (fieldOp S x (xbar S k)) (S.expH 0) w.phia ∧
      w'.phib = (if S.two then move S (fieldOp S x (xbar S k)) (S.expH 1) w.phib else w.phib) := by
    intro e
    unfold step
    simp only [hk, if_neg hne, updateWeight, hs, if_true]
    exact ⟨_, rfl, rfl, rfl⟩
  generalize (if S.two then move S (fieldOp S x (xbar S k)) (S.expH 1) w.phib else w.phib) = b
    at hstep
  obtain ⟨w', h1, h2, h3⟩ := hstep (-Real.log ‖ovlp S (move S (fieldOp S x (xbar S k)) (S.expH 0)
    w.phia) b / ovlp S w.phia w.phib *
      Complex.exp (cfb x (xbar S k) + cmf S.dt x (xbar S k) S.lbar)‖ / S.dt)
  refine ⟨w', _, _, h1, ⟨k, hk, rfl, rfl⟩, ?_⟩
  rw [Complex.ofReal_re, h2, h3, sub_self, abs_zero]
  exact Real.sqrt_nonneg _

/-- One orbital and one field with a complex mean-field value; the walker is twice the trial. -/
def one : Setup (Fin 1) (Fin 1) (Fin 1) (Fin 1) where
  two := false
  dt := 1
  order := 1
  bound := 1
  scheme := some "hybrid"
  expH := fun _ => 1
  L := fun _ => 1
  lbar := fun _ => Complex.I
  Ta := !![1]
  Tb := !![1]

/-- The hypotheses hold for a step of the walker with the field value three. -/
example : ∃ (w' : Walker (Fin 1) (Fin 1) (Fin 1)) (R : ℂ) (c e : ℝ),
    Ratio one e (fun _ => 3) ⟨!![2], !![2], 1, 0, 0⟩ w' R c ∧
    Path one id ⟨!![2], !![2], 1, 0, 0⟩ [.prop e fun _ => 3]
      (‖R‖ * Real.exp (1 * (e : ℂ).re) * max 0 (Real.cos c) * 1) ∧
    ∃ sigma, Steps one ⟨!![2], !![2], 1, 0, 0⟩ [(e, fun _ => 3)] sigma := by
  have hd : (ovlpMatrix (!![1] : Matrix (Fin 1) (Fin 1) ℂ) !![2]).det ≠ 0 := by
    simp [ovlpMatrix, conj, Matrix.mul_apply]
  obtain ⟨k, hk⟩ : ∃ k, halves one !![2] !![2] = some k := by
    simp only [halves, one, ghalf, Bool.false_eq_true, if_false]
    rw [inv_eq hd]
    exact ⟨_, rfl⟩
  have hb : ‖xbar one k 0‖ ≤ 1 := (fbias_bound_partial 1 le_rfl _).1
  have hm : move one (fieldOp one (fun _ => 3) (xbar one k)) (one.expH 0) !![2] =
      !![(1 + Complex.I * (3 - xbar one k 0)) * 2] := by
    ext i j
    fin_cases i; fin_cases j
    simp [move, taylor_sum, fieldOp, xshift, one, Finset.sum_range_succ, Matrix.mul_apply]
    ring
  obtain ⟨w', R, e, h⟩ := ratio_exists one rfl (fun _ => 3) ⟨!![2], !![2], 1, 0, 0⟩ k hk (by
    simp only
    rw [hm]
    have : 1 + Complex.I * (3 - xbar one k 0) ≠ 0 := by
      intro h0
      have h1 : xbar one k 0 = 3 - Complex.I := by
        linear_combination Complex.I * h0 - (3 - xbar one k 0) * Complex.I_mul_I
      rw [h1] at hb
      have := (Complex.abs_re_le_norm (3 - Complex.I)).trans hb
      norm_num at this
    simpa [ovlp, one, beta, overlap, ovlpMatrix, conj, Matrix.mul_apply] using this)
  exact ⟨w', R, _, e, h, .prop h (.nil _), _, .prop h hk (.nil _)⟩

end OpenMS.Step
