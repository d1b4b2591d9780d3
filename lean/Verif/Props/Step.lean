import Verif.Model.Step
import Verif.Props.Green
import Verif.Props.Propagate
import Verif.Props.WeightUpdate
import Mathlib.Analysis.Normed.Algebra.MatrixExponential

/-!
# C99, C100: whole propagation steps
-/

namespace OpenMS.Step

open Matrix OpenMS.Propagators OpenMS.Green

variable {p ia ib g : Type*} [Fintype p] [Fintype ia] [DecidableEq ia] [Fintype ib]
  [DecidableEq ib] [Fintype g]

/-- The half-rotated Green's function does not depend on the basis of the occupied space. -/
theorem ghalf_gauge {i : Type*} [Fintype i] [DecidableEq i] (T W : Matrix p i ℂ)
    (R : Matrix i i ℂ) (hR : R.det ≠ 0) : ghalf T (W * R) = ghalf T W := by
  have hu : IsUnit R.det := isUnit_iff_ne_zero.2 hR
  have e : ovlpMatrix T (W * R) = Rᵀ * ovlpMatrix T W := by
    unfold ovlpMatrix; rw [Matrix.transpose_mul, Matrix.mul_assoc]
  have hd : (ovlpMatrix T (W * R)).det = R.det * (ovlpMatrix T W).det := by
    rw [e, Matrix.det_mul, Matrix.det_transpose]
  unfold ghalf
  by_cases h0 : (ovlpMatrix T W).det = 0
  · have h1 : (ovlpMatrix T (W * R)).det = 0 := by rw [hd, h0, mul_zero]
    unfold Green.inv
    rw [if_pos h0, if_pos h1]
    rfl
  · have h1 : (ovlpMatrix T (W * R)).det ≠ 0 := by rw [hd]; exact mul_ne_zero hR h0
    rw [inv_eq h0, inv_eq h1]
    simp only [Option.map_some, Option.some.injEq]
    have m1 : ∀ (M : Matrix i i ℂ) (V : Matrix p i ℂ),
        (Matrix.of fun a b => ∑ j, M b j * V a j) = V * Mᵀ := by
      intro M V; ext a b
      simp only [Matrix.of_apply, Matrix.mul_apply, Matrix.transpose_apply]
      exact Finset.sum_congr rfl fun _ _ => mul_comm _ _
    rw [m1, m1, e, Matrix.mul_inv_rev, Matrix.transpose_mul, ← Matrix.transpose_nonsing_inv,
      Matrix.transpose_transpose, Matrix.mul_assoc, ← Matrix.mul_assoc R,
      Matrix.mul_nonsing_inv R hu, Matrix.one_mul]

theorem det_gauge {i : Type*} [Fintype i] [DecidableEq i] (T W : Matrix p i ℂ)
    (R : Matrix i i ℂ) : (ovlpMatrix T (W * R)).det = R.det * (ovlpMatrix T W).det := by
  unfold ovlpMatrix
  rw [Matrix.transpose_mul, Matrix.mul_assoc, Matrix.det_mul, Matrix.det_transpose]

/-- The determinant factor which a change of the occupied basis puts on the overlap. -/
noncomputable def factor (two : Bool) (Ra : Matrix ia ia ℂ) (Rb : Matrix ib ib ℂ) : ℂ :=
  if two then Ra.det * Rb.det else Ra.det * Ra.det

omit [Fintype g] in
theorem ovlp_gauge (S : Setup p ia ib g) (a : Matrix p ia ℂ) (b : Matrix p ib ℂ)
    (Ra : Matrix ia ia ℂ) (Rb : Matrix ib ib ℂ) :
    ovlp S (a * Ra) (b * Rb) = factor S.two Ra Rb * ovlp S a b := by
  unfold ovlp beta factor
  cases S.two
  · simp only [Bool.false_eq_true, if_false, overlap, det_gauge]; ring
  · simp only [if_true, overlap, det_gauge]; ring

theorem factor_ne (two : Bool) (Ra : Matrix ia ia ℂ) (Rb : Matrix ib ib ℂ) (ha : Ra.det ≠ 0)
    (hb : Rb.det ≠ 0) : factor two Ra Rb ≠ 0 := by
  unfold factor; split_ifs
  · exact mul_ne_zero ha hb
  · exact mul_ne_zero ha ha

omit [Fintype g] in
theorem halves_gauge (S : Setup p ia ib g) (a : Matrix p ia ℂ) (b : Matrix p ib ℂ)
    (Ra : Matrix ia ia ℂ) (Rb : Matrix ib ib ℂ) (ha : Ra.det ≠ 0) (hb : Rb.det ≠ 0) :
    halves S (a * Ra) (b * Rb) = halves S a b := by
  unfold halves
  rw [ghalf_gauge _ _ _ ha, ghalf_gauge _ _ _ hb]

theorem expOpOne_mul {i j : Type*} [Fintype i] (A : Matrix p p ℂ) (phi : Matrix p i ℂ)
    (R : Matrix i j ℂ) (order : ℕ) :
    expOpOne A (phi * R) order = expOpOne A phi order * R := by
  classical
  rw [taylor_sum, taylor_sum, Matrix.sum_mul]
  refine Finset.sum_congr rfl fun k _ => ?_
  rw [Matrix.smul_mul, Matrix.mul_assoc]

omit [Fintype ia] [DecidableEq ia] [Fintype ib] [DecidableEq ib] [Fintype g] in
theorem move_mul {i : Type*} [Fintype i] (S : Setup p ia ib g) (A E : Matrix p p ℂ)
    (phi : Matrix p i ℂ) (R : Matrix i i ℂ) : move S A E (phi * R) = move S A E phi * R := by
  unfold move
  rw [← Matrix.mul_assoc, expOpOne_mul, Matrix.mul_assoc]

/-- The walker with its occupied orbitals in another basis. -/
def rotate (w : Walker p ia ib) (Ra : Matrix ia ia ℂ) (Rb : Matrix ib ib ℂ) : Walker p ia ib :=
  { w with phia := w.phia * Ra, phib := w.phib * Rb }

/-- **C99, one step.** Replacing the occupied orbitals of a walker by any other basis of the
same space changes neither the errors, nor the weight, nor the energies produced by a step; the new
orbitals are rotated by the same matrices. -/
theorem step_gauge (S : Setup p ia ib g) (eshift : ℂ) (x : g → ℝ) (w : Walker p ia ib)
    (Ra : Matrix ia ia ℂ) (Rb : Matrix ib ib ℂ) (ha : Ra.det ≠ 0) (hb : Rb.det ≠ 0) :
    step S eshift x (rotate w Ra Rb) = (step S eshift x w).map (fun w' => rotate w' Ra Rb) := by
  unfold step rotate
  simp only [halves_gauge S _ _ Ra Rb ha hb]
  cases hh : halves S w.phia w.phib with
  | none => rfl
  | some h =>
    simp only [move_mul]
    have e : (if S.two = true then move S (fieldOp S x (xbar S h)) (S.expH 1) w.phib * Rb
        else w.phib * Rb) =
        (if S.two = true then move S (fieldOp S x (xbar S h)) (S.expH 1) w.phib
          else w.phib) * Rb := by split_ifs <;> rfl
    rw [e, ovlp_gauge, ovlp_gauge]
    generalize (if S.two = true then move S (fieldOp S x (xbar S h)) (S.expH 1) w.phib
          else w.phib) = bnew
    generalize move S (fieldOp S x (xbar S h)) (S.expH 0) w.phia = anew
    have hf := factor_ne S.two Ra Rb ha hb
    by_cases h0 : ovlp S anew bnew = 0
    · rw [if_pos h0, if_pos (by rw [h0, mul_zero])]; rfl
    · rw [if_neg h0, if_neg (mul_ne_zero hf h0)]
      have hu : ∀ y z : ℂ, factor S.two Ra Rb * y / (factor S.two Ra Rb * z) = y / z :=
        fun y z => mul_div_mul_left y z hf
      unfold updateWeight updateHybrid updateLocal hybridEnergy
      simp only [hu]
      split_ifs <;> rfl

/-- A correct orthogonalisation routine: it returns a QR factorisation of the orbitals (which one
is left open) and touches neither the weight nor the energies. -/
def ValidQR {ka kb : ℕ} (qr : Walker p (Fin ka) (Fin kb) → Walker p (Fin ka) (Fin kb)) : Prop :=
  ∀ w, (∃ Ra, IsQR w.phia (qr w).phia Ra) ∧ (∃ Rb, IsQR w.phib (qr w).phib Rb) ∧
    (qr w).weight = w.weight ∧ (qr w).ehybrid = w.ehybrid ∧ (qr w).eloc = w.eloc

omit [Fintype g] in
theorem ovlp_det {S : Setup p ia ib g} {a : Matrix p ia ℂ} {b : Matrix p ib ℂ}
    (h : ovlp S a b ≠ 0) : (ovlpMatrix S.Ta a).det ≠ 0 ∧ (S.two = true → (ovlpMatrix S.Tb b).det ≠ 0) := by
  unfold ovlp beta at h
  cases ht : S.two
  · rw [ht] at h
    exact ⟨fun h0 => h (by simp [overlap, h0]), by simp⟩
  · rw [ht] at h
    exact ⟨fun h0 => h (by simp [overlap, h0]), fun _ h0 => h (by simp [overlap, h0])⟩

/-- Two walkers describe the same state: same weight and energies, and the orbitals that are in
use span the same space. -/
def Same (two : Bool) (w v : Walker p ia ib) : Prop :=
  v.weight = w.weight ∧ v.ehybrid = w.ehybrid ∧ v.eloc = w.eloc ∧
  (∃ Ra : Matrix ia ia ℂ, Ra.det ≠ 0 ∧ w.phia = v.phia * Ra) ∧
  (two = true → ∃ Rb : Matrix ib ib ℂ, Rb.det ≠ 0 ∧ w.phib = v.phib * Rb)

omit [Fintype g] in
theorem same_qr {ka kb : ℕ} {S : Setup p (Fin ka) (Fin kb) g}
    {qr : Walker p (Fin ka) (Fin kb) → Walker p (Fin ka) (Fin kb)} (hq : ValidQR qr)
    {w v : Walker p (Fin ka) (Fin kb)} (hw : ovlp S w.phia w.phib ≠ 0) (h : Same S.two w v) :
    Same S.two w (qr v) := by
  obtain ⟨⟨Qa, hQa⟩, ⟨Qb, hQb⟩, h1, h2, h3⟩ := hq v
  obtain ⟨g1, g2, g3, ⟨Ra, hRa, ea⟩, hb⟩ := h
  obtain ⟨da, db⟩ := ovlp_det hw
  refine ⟨h1.trans g1, h2.trans g2, h3.trans g3, ⟨Qa * Ra, ?_, ?_⟩, fun ht => ?_⟩
  · have : w.phia = (qr v).phia * (Qa * Ra) := by rw [ea, ← Matrix.mul_assoc, ← hQa.factor]
    rw [this, det_gauge] at da
    exact left_ne_zero_of_mul da
  · rw [ea, ← Matrix.mul_assoc, ← hQa.factor]
  · obtain ⟨Rb, hRb, eb⟩ := hb ht
    refine ⟨Qb * Rb, ?_, ?_⟩
    · have : w.phib = (qr v).phib * (Qb * Rb) := by rw [eb, ← Matrix.mul_assoc, ← hQb.factor]
      have := db ht
      rw [eb, hQb.factor, Matrix.mul_assoc, det_gauge] at this
      exact left_ne_zero_of_mul this
    · rw [eb, ← Matrix.mul_assoc, ← hQb.factor]

/-- For one component the second matrix of a walker plays no role. -/
theorem step_ignores (S : Setup p ia ib g) (ht : S.two = false) (eshift : ℂ) (x : g → ℝ)
    (w : Walker p ia ib) (b : Matrix p ib ℂ) :
    step S eshift x { w with phib := b } = (step S eshift x w).map (fun w' => { w' with phib := b }) := by
  unfold step halves ovlp beta xbar
  simp only [ht, Bool.false_eq_true, if_false]
  cases ghalf S.Ta w.phia with
  | none => rfl
  | some h =>
    simp only [beta, Bool.false_eq_true, if_false, overlap]
    split_ifs
    · rfl
    · split <;> simp_all [Except.map]

/-- What a successful step consists of. -/
theorem step_ok {S : Setup p ia ib g} {eshift : ℂ} {x : g → ℝ} {w w' : Walker p ia ib}
    (h : step S eshift x w = .ok w') : ∃ k, halves S w.phia w.phib = some k ∧
      w'.phia = move S (fieldOp S x (xbar S k)) (S.expH 0) w.phia ∧
      w'.phib = (if S.two then move S (fieldOp S x (xbar S k)) (S.expH 1) w.phib else w.phib) ∧
      ovlp S w'.phia w'.phib ≠ 0 ∧
      updateWeight S.scheme S.dt eshift w.weight w.ehybrid
        ⟨ovlp S w.phia w.phib, ovlp S w'.phia w'.phib, cfb x (xbar S k),
          cmf S.dt x (xbar S k) S.lbar, w.eloc⟩ = .ok (w'.weight, w'.ehybrid) ∧
      w'.eloc = w.eloc := by
  unfold step at h
  cases hh : halves S w.phia w.phib with
  | none => simp [hh] at h
  | some k =>
    simp only [hh] at h
    refine ⟨k, rfl, ?_⟩
    generalize (if S.two = true then move S (fieldOp S x (xbar S k)) (S.expH 1) w.phib
        else w.phib) = b at h ⊢
    split_ifs at h with h0
    split at h
    · simp at h
    · rename_i wt eh heq
      simp only [Except.ok.injEq] at h
      subst h
      exact ⟨rfl, rfl, h0, heq, rfl⟩

/-- A successful step has a new overlap different from zero. -/
theorem step_ovlp {S : Setup p ia ib g} {eshift : ℂ} {x : g → ℝ} {w w' : Walker p ia ib}
    (h : step S eshift x w = .ok w') : ovlp S w'.phia w'.phib ≠ 0 := by
  obtain ⟨_, _, _, _, h0, _⟩ := step_ok h
  exact h0

theorem step_same {S : Setup p ia ib g} {eshift : ℂ} {x : g → ℝ} {w w' v : Walker p ia ib}
    (hs : Same S.two w v) (h : step S eshift x w = .ok w') :
    ∃ v', step S eshift x v = .ok v' ∧ Same S.two w' v' := by
  obtain ⟨h1, h2, h3, ⟨Ra, hRa, ea⟩, hb⟩ := hs
  cases ht : S.two
  · have e : w = { rotate v Ra 1 with phib := w.phib } := by
      cases w; cases v; simp_all [rotate]
    rw [e, step_ignores S ht, step_gauge S _ _ _ _ _ hRa (by simp)] at h
    cases hv : step S eshift x v with
    | error m => rw [hv] at h; simp [Except.map] at h
    | ok v' =>
      rw [hv] at h
      simp only [Except.map, Except.ok.injEq] at h
      refine ⟨v', rfl, ?_⟩
      rw [← h]
      exact ⟨rfl, rfl, rfl, ⟨Ra, hRa, rfl⟩, by simp⟩
  · obtain ⟨Rb, hRb, eb⟩ := hb ht
    have e : w = rotate v Ra Rb := by
      cases w; cases v; simp_all [rotate]
    rw [e, step_gauge S _ _ _ _ _ hRa hRb] at h
    cases hv : step S eshift x v with
    | error m => rw [hv] at h; simp [Except.map] at h
    | ok v' =>
      rw [hv] at h
      simp only [Except.map, Except.ok.injEq] at h
      refine ⟨v', rfl, ?_⟩
      rw [← h]
      exact ⟨rfl, rfl, rfl, ⟨Ra, hRa, rfl⟩, fun _ => ⟨Rb, hRb, rfl⟩⟩

/-- **C99.** When and how often the walkers are orthogonalised does not matter: if a sequence of
propagation steps succeeds without any orthogonalisation, then with orthogonalisations put in
anywhere (and whatever QR factorisation is returned) it succeeds too, gives the same weight and the
same hybrid energy after every step, and ends in the same state. -/
theorem ortho_irrelevant {ka kb : ℕ} (S : Setup p (Fin ka) (Fin kb) g)
    (qr : Walker p (Fin ka) (Fin kb) → Walker p (Fin ka) (Fin kb)) (hq : ValidQR qr)
    (events : List (Event g)) (w w' : Walker p (Fin ka) (Fin kb)) (out : List (ℝ × ℝ))
    (h0 : ovlp S w.phia w.phib ≠ 0)
    (h : run S qr (events.filter fun e => match e with | .ortho => false | .prop _ _ => true) w =
      .ok (w', out)) :
    ∃ v', run S qr events w = .ok (v', out) ∧ Same S.two w' v' := by
  have gen : ∀ (events : List (Event g)) (w v w' : Walker p (Fin ka) (Fin kb)) (out : List (ℝ × ℝ)),
      ovlp S w.phia w.phib ≠ 0 → Same S.two w v →
      run S qr (events.filter fun e => match e with | .ortho => false | .prop _ _ => true) w =
        .ok (w', out) →
      ∃ v', run S qr events v = .ok (v', out) ∧ Same S.two w' v' := by
    intro events
    induction events with
    | nil =>
      intro w v w' out _ hs h
      simp only [List.filter_nil, run, Except.ok.injEq, Prod.mk.injEq] at h
      obtain ⟨rfl, rfl⟩ := h
      exact ⟨v, rfl, hs⟩
    | cons e es ih =>
      intro w v w' out hw hs h
      cases e with
      | ortho =>
        simp only [List.filter_cons, Bool.false_eq_true, if_false] at h
        exact ih w (qr v) w' out hw (same_qr hq hw hs) h
      | prop e x =>
        simp only [List.filter_cons, if_true, run] at h
        cases hst : step S e x w with
        | error m => simp [hst] at h
        | ok w1 =>
          obtain ⟨v1, hv1, hs1⟩ := step_same hs hst
          simp only [hst] at h
          split at h
          · simp at h
          · rename_i w2 l heq
            simp only [Except.ok.injEq, Prod.mk.injEq] at h
            obtain ⟨rfl, rfl⟩ := h
            obtain ⟨v2, hv2, hs2⟩ := ih w1 v1 w2 l (step_ovlp hst) hs1 heq
            refine ⟨v2, ?_, hs2⟩
            simp only [run, hv1, hv2, hs1.1, hs1.2.1]
  refine gen events w w w' out h0 ⟨rfl, rfl, rfl, ⟨1, by simp, by simp⟩, fun _ => ⟨1, by simp, by simp⟩⟩ h

/-- **C99.** A run that ends with an orthogonalisation ends with orthonormal orbitals. -/
theorem ortho_last {ka kb : ℕ} (S : Setup p (Fin ka) (Fin kb) g)
    (qr : Walker p (Fin ka) (Fin kb) → Walker p (Fin ka) (Fin kb)) (hq : ValidQR qr)
    (events : List (Event g)) (w w' : Walker p (Fin ka) (Fin kb)) (out : List (ℝ × ℝ))
    (h : run S qr (events ++ [.ortho]) w = .ok (w', out)) :
    w'.phiaᴴ * w'.phia = 1 ∧ w'.phibᴴ * w'.phib = 1 := by
  have hc : ∀ {k : ℕ} (M : Matrix p (Fin k) ℂ), (Green.conj M)ᵀ = Mᴴ := fun M => by
    ext a b; simp [Green.conj]
  induction events generalizing w out with
  | nil =>
    simp only [List.nil_append, run, Except.ok.injEq, Prod.mk.injEq] at h
    obtain ⟨rfl, -⟩ := h
    obtain ⟨⟨Ra, ha⟩, ⟨Rb, hb⟩, -⟩ := hq w
    exact ⟨hc (qr w).phia ▸ ha.orth, hc (qr w).phib ▸ hb.orth⟩
  | cons e es ih =>
    cases e with
    | ortho => exact ih (qr w) out h
    | prop e x =>
      simp only [List.cons_append, run] at h
      split at h
      · simp at h
      · rename_i w1 _
        split at h
        · simp at h
        · rename_i w2 l heq
          simp only [Except.ok.injEq, Prod.mk.injEq] at h
          obtain ⟨rfl, -⟩ := h
          exact ih w1 l heq

/-- Correct orthogonalisation routines exist: one level, `Q = 1` and `R = phi`. -/
example : ValidQR (p := Fin 1) (ka := 1) (kb := 1) (fun w => { w with phia := 1, phib := 1 }) := by
  intro w
  refine ⟨⟨w.phia, ⟨by simp, ?_, ?_⟩⟩, ⟨w.phib, ⟨by simp, ?_, ?_⟩⟩, rfl, rfl, rfl⟩
  · ext a b; fin_cases a; fin_cases b; simp [Green.conj]
  · intro a b h; exact absurd h (by rw [Subsingleton.elim a b]; exact lt_irrefl _)
  · ext a b; fin_cases a; fin_cases b; simp [Green.conj]
  · intro a b h; exact absurd h (by rw [Subsingleton.elim a b]; exact lt_irrefl _)

/-! ### Electrons without interaction -/

section Free
variable [DecidableEq p]

theorem exp_half (dt : ℝ) (h : Matrix p p ℂ) :
    NormedSpace.exp (-(dt / 2 : ℂ) • h) * NormedSpace.exp (-(dt / 2 : ℂ) • h) =
      NormedSpace.exp (-(dt : ℂ) • h) := by
  rw [← Matrix.exp_add_of_commute _ _ (Commute.refl _), ← add_smul]
  congr 2
  ring

theorem expOpOne_zero {i : Type*} (phi : Matrix p i ℂ) (order : ℕ) :
    expOpOne (0 : Matrix p p ℂ) phi order = phi := by
  rw [taylor_sum, Finset.sum_range_succ']
  simp [pow_succ]

omit [Fintype ia] [Fintype ib] [DecidableEq ia] [DecidableEq ib] in
theorem move_free {i : Type*} [IsEmpty g] (S : Setup p ia ib g) (x : g → ℝ) (xb : g → ℂ)
    (h : Matrix p p ℂ) (phi : Matrix p i ℂ) :
    move S (fieldOp S x xb) (NormedSpace.exp (-(S.dt / 2 : ℂ) • h)) phi =
      NormedSpace.exp (-(S.dt : ℂ) • h) * phi := by
  have : fieldOp S x xb = 0 := by simp [fieldOp]
  rw [this, move, expOpOne_zero, ← Matrix.mul_assoc, exp_half]

/-- **C100, orbitals.** Without interaction (no auxiliary fields) a step applies exactly
`exp(-dt h)` to the orbitals of each spin: there is no time-step error. -/
theorem free_step [IsEmpty g] (S : Setup p ia ib g) (h : Fin 2 → Matrix p p ℂ)
    (hE : ∀ σ, S.expH σ = NormedSpace.exp (-(S.dt / 2 : ℂ) • h σ)) (eshift : ℂ) (x : g → ℝ)
    (w w' : Walker p ia ib) (hs : step S eshift x w = .ok w') :
    w'.phia = NormedSpace.exp (-(S.dt : ℂ) • h 0) * w.phia ∧
    (S.two = true → w'.phib = NormedSpace.exp (-(S.dt : ℂ) • h 1) * w.phib) := by
  obtain ⟨k, _, ha, hb, _⟩ := step_ok hs
  refine ⟨?_, fun ht => ?_⟩
  · rw [ha, hE 0, move_free]
  · rw [hb, if_pos ht, hE 1, move_free]

omit [DecidableEq p] in
/-- The exponential of a matrix acts on eigenvectors by the exponential of the eigenvalues. -/
theorem exp_eigen {i : Type*} [Fintype i] [DecidableEq i] [DecidableEq p] (dt : ℝ) (h : Matrix p p ℂ)
    (V : Matrix p i ℂ) (ε : i → ℂ) (hV : h * V = V * Matrix.diagonal ε) :
    NormedSpace.exp (-(dt : ℂ) • h) * V =
      V * Matrix.diagonal (fun k => Complex.exp (-(dt : ℂ) * ε k)) := by
  have hpow : ∀ k : ℕ, (-(dt : ℂ) • h) ^ k * V = V * Matrix.diagonal (fun j => (-(dt : ℂ) * ε j) ^ k) := by
    intro k
    induction k with
    | zero => simp
    | succ k ih =>
      rw [pow_succ', Matrix.mul_assoc, ih, ← Matrix.mul_assoc, Matrix.smul_mul, hV, ← Matrix.mul_smul,
        Matrix.mul_assoc, ← Matrix.diagonal_smul, Matrix.diagonal_mul_diagonal]
      congr 2
      funext j
      simp only [Pi.smul_apply, smul_eq_mul, pow_succ]
      ring
  have t1 := taylor_tendsto (-(dt : ℂ) • h) V
  have t2 : Filter.Tendsto (fun order => expOpOne (-(dt : ℂ) • h) V order) Filter.atTop
      (nhds (V * Matrix.diagonal (fun k => Complex.exp (-(dt : ℂ) * ε k)))) := by
    have e : ∀ order, expOpOne (-(dt : ℂ) • h) V order = V * Matrix.diagonal
        (fun j => ∑ k ∈ Finset.range (order + 1), ((k.factorial : ℂ)⁻¹) • (-(dt : ℂ) * ε j) ^ k) := by
      intro order
      rw [taylor_sum]
      simp only [hpow]
      ext a b
      simp only [Matrix.sum_apply, Matrix.smul_apply, Matrix.mul_diagonal, smul_eq_mul, Finset.mul_sum]
      exact Finset.sum_congr rfl fun k _ => by ring
    simp only [e]
    have hs : ∀ j, Filter.Tendsto (fun order : ℕ => ∑ k ∈ Finset.range (order + 1),
        ((k.factorial : ℂ)⁻¹) • (-(dt : ℂ) * ε j) ^ k) Filter.atTop
        (nhds (Complex.exp (-(dt : ℂ) * ε j))) := by
      intro j
      have h0 : HasSum (fun k : ℕ => ((k.factorial : ℂ)⁻¹) • (-(dt : ℂ) * ε j) ^ k)
          (NormedSpace.exp (-(dt : ℂ) * ε j)) := NormedSpace.exp_series_hasSum_exp' (𝕂 := ℂ) _
      rw [← Complex.exp_eq_exp_ℂ] at h0
      exact h0.tendsto_sum_nat.comp (Filter.tendsto_add_atTop_nat 1)
    refine tendsto_pi_nhds.2 fun a => tendsto_pi_nhds.2 fun b => ?_
    simp only [Matrix.mul_diagonal]
    exact (hs b).const_mul (V a b)
  exact tendsto_nhds_unique t1 t2

/-- For eigenvectors of a Hermitian matrix as trial orbitals, the overlap determinant with any
walker is multiplied by the exponential of the sum of eigenvalues. -/
theorem det_free {i : Type*} [Fintype i] [DecidableEq i] (dt : ℝ) (h : Matrix p p ℂ) (hh : hᴴ = h)
    (T W : Matrix p i ℂ) (ε : i → ℝ) (hT : h * T = T * Matrix.diagonal (fun k => (ε k : ℂ))) :
    (ovlpMatrix T (NormedSpace.exp (-(dt : ℂ) • h) * W)).det =
      Complex.exp (-(dt : ℂ) * ∑ k, (ε k : ℂ)) * (ovlpMatrix T W).det := by
  have hc : hᵀ * conj T = conj T * Matrix.diagonal (fun k => (ε k : ℂ)) := by
    have e1 : hᵀ = h.map (starRingEnd ℂ) := by
      conv_lhs => rw [← hh]
      ext a b; simp [Matrix.conjTranspose_apply]
    have e2 := congrArg (fun M : Matrix p i ℂ => M.map (starRingEnd ℂ)) hT
    simp only [Matrix.map_mul] at e2
    rw [e1]
    unfold conj
    rw [e2]
    congr 1
    rw [Matrix.diagonal_map (by simp)]
    congr 1
    funext k; simp
  have h2 := exp_eigen dt hᵀ (conj T) (fun k => (ε k : ℂ)) hc
  unfold ovlpMatrix
  rw [Matrix.transpose_mul, Matrix.mul_assoc, ← Matrix.exp_transpose, Matrix.transpose_smul, h2,
    ← Matrix.mul_assoc, Matrix.det_mul, Matrix.det_diagonal, mul_comm]
  congr 1
  rw [← Complex.exp_sum, Finset.mul_sum]

/-- The energy of the trial: the sum of the occupied levels. -/
def levelSum (two : Bool) (εa : ia → ℝ) (εb : ib → ℝ) : ℝ :=
  if two then (∑ k, εa k) + ∑ k, εb k else (∑ k, εa k) + ∑ k, εa k

/-- The hypotheses of the non-interacting theorems: no fields, one-body propagators of Hermitian
matrices, trial orbitals which are eigenvectors, hybrid scheme. -/
structure FreeSetup (S : Setup p ia ib g) (h : Fin 2 → Matrix p p ℂ) (εa : ia → ℝ) (εb : ib → ℝ) :
    Prop where
  dt : 0 < S.dt
  scheme : S.scheme = some "hybrid"
  herm : ∀ σ, (h σ)ᴴ = h σ
  expH : ∀ σ, S.expH σ = NormedSpace.exp (-(S.dt / 2 : ℂ) • h σ)
  eiga : h 0 * S.Ta = S.Ta * Matrix.diagonal (fun k => (εa k : ℂ))
  eigb : S.two = true → h 1 * S.Tb = S.Tb * Matrix.diagonal (fun k => (εb k : ℂ))

/-- **C100, weights.** Without interaction and with an eigenstate as trial, a step succeeds for
every walker that overlaps the trial, and its hybrid energy is the exact energy (confined to the
window around the shift); the weight gets the corresponding factor.  Neither the orbitals of the
walker nor the random numbers enter: zero variance. -/
theorem zero_variance [IsEmpty g] (S : Setup p ia ib g) (h : Fin 2 → Matrix p p ℂ) (εa : ia → ℝ)
    (εb : ib → ℝ) (hS : FreeSetup S h εa εb) (eshift : ℝ) (x : g → ℝ)
    (w : Walker p ia ib) (h0 : ovlp S w.phia w.phib ≠ 0) :
    ∃ w', step S eshift x w = .ok w' ∧
      ovlp S w'.phia w'.phib = Real.exp (-S.dt * levelSum S.two εa εb) * ovlp S w.phia w.phib ∧
      w'.ehybrid = min (max (levelSum S.two εa εb) (eshift - Real.sqrt (2 / S.dt)))
        (eshift + Real.sqrt (2 / S.dt)) ∧
      w'.weight = w.weight * Real.exp (-S.dt * (1 / 2 * (w'.ehybrid + w.ehybrid) - eshift)) := by
  obtain ⟨hdt, hsch, hherm, hE, ha, hb⟩ := hS
  obtain ⟨da, db⟩ := ovlp_det h0
  obtain ⟨k, hk⟩ : ∃ k, halves S w.phia w.phib = some k := by
    unfold halves ghalf
    rw [inv_eq da]
    cases ht : S.two
    · exact ⟨_, rfl⟩
    · simp only [Option.map_some, if_true]
      rw [inv_eq (db ht)]
      exact ⟨_, rfl⟩
  have hov : ∀ b, b = (if S.two then move S (fieldOp S x (xbar S k)) (S.expH 1) w.phib else w.phib) →
      ovlp S (move S (fieldOp S x (xbar S k)) (S.expH 0) w.phia) b =
      ((Real.exp (-S.dt * levelSum S.two εa εb) : ℝ) : ℂ) * ovlp S w.phia w.phib := by
    intro b hbb
    rw [hE 0, move_free]
    unfold ovlp beta levelSum
    cases ht : S.two
    · simp only [Bool.false_eq_true, if_false, overlap]
      rw [det_free S.dt (h 0) (hherm 0) S.Ta w.phia εa ha]
      push_cast
      rw [mul_add, Complex.exp_add]
      ring
    · simp only [if_true, overlap]
      rw [ht, if_pos rfl, hE 1, move_free] at hbb
      rw [hbb, det_free S.dt (h 0) (hherm 0) S.Ta w.phia εa ha,
        det_free S.dt (h 1) (hherm 1) S.Tb w.phib εb (hb ht)]
      push_cast
      rw [mul_add, Complex.exp_add]
      ring
  set E := levelSum S.two εa εb with hEdef
  have hratio : ∀ y : ℂ, y = ((Real.exp (-S.dt * E) : ℝ) : ℂ) * ovlp S w.phia w.phib →
      hybridEnergy S.dt (ovlp S w.phia w.phib) y (cfb x (xbar S k)) (cmf S.dt x (xbar S k) S.lbar)
        eshift = min (max E (eshift - Real.sqrt (2 / S.dt))) (eshift + Real.sqrt (2 / S.dt)) := by
    intro y hy
    unfold hybridEnergy clipTo ebound
    have c1 : cfb x (xbar S k) = 0 := by simp [cfb]
    have c2 : cmf S.dt x (xbar S k) S.lbar = 0 := by simp [cmf]
    rw [c1, c2, hy, mul_div_assoc, div_self h0, mul_one, ← Complex.ofReal_log (Real.exp_pos _).le,
      Real.log_exp]
    have : (-(((-S.dt * E : ℝ) : ℂ) + 0 + 0) / (S.dt : ℂ)).re = E := by
      rw [add_zero, add_zero, ← Complex.ofReal_neg, ← Complex.ofReal_div, Complex.ofReal_re]
      field_simp
    rw [this]
    simp
  refine ⟨⟨move S (fieldOp S x (xbar S k)) (S.expH 0) w.phia,
    (if S.two then move S (fieldOp S x (xbar S k)) (S.expH 1) w.phib else w.phib),
    w.weight * Real.exp (-S.dt * (1 / 2 * (min (max E (eshift - Real.sqrt (2 / S.dt)))
      (eshift + Real.sqrt (2 / S.dt)) + w.ehybrid) - eshift)),
    min (max E (eshift - Real.sqrt (2 / S.dt))) (eshift + Real.sqrt (2 / S.dt)), w.eloc⟩, ?_,
    hov _ rfl, rfl, rfl⟩
  unfold step
  rw [hk]
  simp only
  generalize hbdef : (if S.two = true then move S (fieldOp S x (xbar S k)) (S.expH 1) w.phib
        else w.phib) = b at *
  have hv := hov b rfl
  have hne : ovlp S (move S (fieldOp S x (xbar S k)) (S.expH 0) w.phia) b ≠ 0 := by
    rw [hv]
    exact mul_ne_zero (Complex.ofReal_ne_zero.2 (Real.exp_pos _).ne') h0
  rw [if_neg hne]
  unfold updateWeight
  rw [if_pos hsch]
  unfold updateHybrid
  simp only
  rw [hratio _ hv]
  have hc1 : cfb x (xbar S k) = 0 := by simp [cfb]
  rw [hc1]
  set e := min (max E (eshift - Real.sqrt (2 / S.dt))) (eshift + Real.sqrt (2 / S.dt))
  have p1 : (-(S.dt : ℂ) * (e : ℂ) - 0).im = 0 := by simp
  have p2 : ‖Complex.exp (-(S.dt : ℂ) * (1 / 2 * ((e : ℂ) + (w.ehybrid : ℂ)) - (eshift : ℂ)))‖ =
      Real.exp (-S.dt * (1 / 2 * (e + w.ehybrid) - eshift)) := by
    rw [Complex.norm_exp]
    congr 1
    have : (-(S.dt : ℂ) * (1 / 2 * ((e : ℂ) + (w.ehybrid : ℂ)) - (eshift : ℂ))) =
      ((-S.dt * (1 / 2 * (e + w.ehybrid) - eshift) : ℝ) : ℂ) := by push_cast; ring
    rw [this, Complex.ofReal_re]
  rw [p1, p2, Real.cos_zero, max_eq_right zero_le_one, mul_one]

/-- **C100, runs.** In the stationary situation (shift and stored hybrid energy equal to the exact
energy) every weight stays what it was during a whole run, and every hybrid energy recorded is the
exact energy. -/
theorem free_run [IsEmpty g] (S : Setup p ia ib g) (h : Fin 2 → Matrix p p ℂ) (εa : ia → ℝ)
    (εb : ib → ℝ) (hS : FreeSetup S h εa εb) (qr : Walker p ia ib → Walker p ia ib)
    (xs : List (g → ℝ)) (w : Walker p ia ib) (h0 : ovlp S w.phia w.phib ≠ 0)
    (he : w.ehybrid = levelSum S.two εa εb) :
    ∃ w', run S qr (xs.map fun x => .prop ((levelSum S.two εa εb : ℝ) : ℂ) x) w =
      .ok (w', xs.map fun _ => (w.weight, levelSum S.two εa εb)) ∧
      w'.weight = w.weight := by
  induction xs generalizing w with
  | nil => exact ⟨w, rfl, rfl⟩
  | cons x xs ih =>
    obtain ⟨w1, hs, ho, hy, hw⟩ := zero_variance S h εa εb hS (levelSum S.two εa εb) x w h0
    have hr : 0 ≤ Real.sqrt (2 / S.dt) := Real.sqrt_nonneg _
    rw [max_eq_left (by linarith), min_eq_left (by linarith)] at hy
    have hw1 : w1.weight = w.weight := by
      rw [hw, hy, he]
      have : -S.dt * (1 / 2 * (levelSum S.two εa εb + levelSum S.two εa εb) -
        levelSum S.two εa εb) = 0 := by ring
      rw [this, Real.exp_zero, mul_one]
    have h1 : ovlp S w1.phia w1.phib ≠ 0 := by
      rw [ho]; exact mul_ne_zero (Complex.ofReal_ne_zero.2 (Real.exp_pos _).ne') h0
    obtain ⟨w', hrun, hw'⟩ := ih w1 h1 hy
    refine ⟨w', ?_, hw'.trans hw1⟩
    simp only [List.map_cons, run, hs, hrun, hw1, hy]

end Free

/-- The hypotheses can be met: two levels `0` and `1`, the lower one occupied by both spins. -/
example : ∃ S : Setup (Fin 2) (Fin 1) (Fin 1) (Fin 0),
    FreeSetup S (fun _ => !![0, 0; 0, 1]) (fun _ => 0) (fun _ => 0) ∧
    ovlp S !![1; 1] !![1; 2] ≠ 0 := by
  refine ⟨⟨true, 1, 6, 1, some "hybrid", fun _ => NormedSpace.exp (-((1 : ℝ) / 2 : ℂ) • !![0, 0; 0, 1]),
    fun _ => 0, fun _ => 0, !![1; 0], !![1; 0]⟩, ⟨one_pos, rfl, fun σ => ?_, fun σ => rfl, ?_, fun _ => ?_⟩, ?_⟩
  · ext a b; fin_cases a <;> fin_cases b <;> simp
  · ext a b; fin_cases a <;> fin_cases b <;> simp [Matrix.mul_apply, Fin.sum_univ_two]
  · ext a b; fin_cases a <;> fin_cases b <;> simp [Matrix.mul_apply, Fin.sum_univ_two]
  · simp [ovlp, beta, overlap, ovlpMatrix, Green.conj, Matrix.mul_apply, Fin.sum_univ_two]

end OpenMS.Step
