import Verif.Model.Incoherent
import Mathlib.Algebra.BigOperators.Group.Finset.Basic
import Mathlib.Analysis.SpecialFunctions.Complex.Arg

/-!
# C163: incoherent dipoles of the Maxwell solver

Each dipole keeps its own random numbers: at all times the `m`-th call uses entry `m`, and the entries follow a
renewal process that depends on the draws of this dipole only.  A waiting time below one stops the renewal for ever.
Real and imaginary amplitude are the parts of one rotating phasor, except for the Lorentzian without decay.
Directions from the upper half sphere with all phases give all dipoles.
-/

namespace OpenMS.Incoherent

variable {mu : ℝ} {t t0 : ℤ}

/-! ### Entries -/

/-- The values of one dipole at the time `t0 + T`: new values are drawn when the time has come. -/
noncomputable def history (mu : ℝ) (t0 : ℤ) (r : ℕ → Draw) : ℕ → Dipole
  | 0 => renew mu t0 (r 0)
  | T + 1 =>
    if t0 + (T + 1 : ℕ) = (history mu t0 r T).tau then renew mu (t0 + (T + 1 : ℕ)) (r (T + 1)) else history mu t0 r T

theorem calls_first (f : ℕ → Draw) (c : ℕ) : ∀ (m : ℕ) (s : State), s.num = m → s.size = m → (s.store = -100 ∨ s.store = t) →
    s.round = false → ∃ s', calls mu t s ((List.range' m c).map f) = some (s', List.range' m c) ∧ s'.num = m + c ∧
      s'.size = m + c ∧ (0 < c → s'.store = t) ∧ s'.round = false ∧ (∀ k < m, s'.dipoles k = s.dipoles k) ∧
      ∀ k, m ≤ k → k < m + c → s'.dipoles k = renew mu t (f k) := by
  induction c with
  | zero =>
    intro m s h1 h2 h3 h4
    exact ⟨s, rfl, h1, h2, fun h => absurd h (lt_irrefl _), h4, fun _ _ => rfl, fun k h5 h6 => by omega⟩
  | succ c ih =>
    intro m s h1 h2 h3 h4
    have hadv : advance t s = ⟨m + 1, m + 1, Function.update s.dipoles m { s.dipoles m with tau := t }, t, false⟩ := by
      unfold advance
      rw [if_pos h3, if_pos h4, h1, h4]
    have hcall : call mu t s (f m) = some (⟨m + 1, m + 1, Function.update (Function.update s.dipoles m
        { s.dipoles m with tau := t }) m (renew mu t (f m)), t, false⟩, m) := by
      unfold call
      rw [hadv]
      simp
    obtain ⟨s', e1, e2, e3, e4, e5, e6, e7⟩ := ih (m + 1) ⟨m + 1, m + 1, Function.update (Function.update s.dipoles m
        { s.dipoles m with tau := t }) m (renew mu t (f m)), t, false⟩ rfl rfl (Or.inr rfl) rfl
    refine ⟨s', ?_, by omega, by omega, fun _ => ?_, e5, fun k hk => ?_, fun k hk hk' => ?_⟩
    · rw [List.range'_succ, List.map_cons, calls, hcall, Option.bind_some, e1]
      rfl
    · rcases Nat.eq_zero_or_pos c with rfl | hc
      · simp only [List.range'_zero, List.map_nil, calls, Option.some.injEq, Prod.mk.injEq, and_true] at e1
        rw [← e1]
      · exact e4 hc
    · rw [e6 k (by omega)]
      dsimp only
      rw [Function.update_of_ne (by omega), Function.update_of_ne (by omega)]
    · rcases Nat.eq_or_lt_of_le hk with rfl | hk
      · rw [e6 m (by omega)]
        dsimp only
        rw [Function.update_self]
      · exact e7 k hk (by omega)

theorem calls_later (f : ℕ → Draw) (c : ℕ) : ∀ (m : ℕ) (s : State), s.num = m → m + c ≤ s.size → s.store = t →
    s.round = true → ∃ s', calls mu t s ((List.range' m c).map f) = some (s', List.range' m c) ∧ s'.num = m + c ∧
      s'.size = s.size ∧ s'.store = t ∧ s'.round = true ∧ (∀ k, ¬(m ≤ k ∧ k < m + c) → s'.dipoles k = s.dipoles k) ∧
      ∀ k, m ≤ k → k < m + c → s'.dipoles k = if t = (s.dipoles k).tau then renew mu t (f k) else s.dipoles k := by
  induction c with
  | zero =>
    intro m s h1 h2 h3 h4
    exact ⟨s, rfl, h1, rfl, h3, h4, fun _ _ => rfl, fun k h5 h6 => by omega⟩
  | succ c ih =>
    intro m s h1 h2 h3 h4
    have hadv : advance t s = ⟨m + 1, s.size, s.dipoles, t, true⟩ := by
      unfold advance
      rw [if_pos (Or.inr h3), if_neg (by rw [h4]; simp), h1, h4]
    obtain ⟨D, hD⟩ : ∃ D, D = if t = (s.dipoles m).tau then Function.update s.dipoles m (renew mu t (f m)) else s.dipoles :=
      ⟨_, rfl⟩
    have hcall : call mu t s (f m) = some (⟨m + 1, s.size, D, t, true⟩, m) := by
      unfold call
      rw [hadv]
      dsimp only
      rw [if_pos (by omega), Nat.add_sub_cancel, hD]
      split_ifs <;> rfl
    have hDm : D m = if t = (s.dipoles m).tau then renew mu t (f m) else s.dipoles m := by
      rw [hD]
      split_ifs
      · rw [Function.update_self]
      · rfl
    have hDk : ∀ k, k ≠ m → D k = s.dipoles k := fun k hk => by
      rw [hD]
      split_ifs
      · rw [Function.update_of_ne hk]
      · rfl
    obtain ⟨s', e1, e2, e3, e4, e5, e6, e7⟩ := ih (m + 1) ⟨m + 1, s.size, D, t, true⟩ rfl (by dsimp only; omega) rfl rfl
    refine ⟨s', ?_, by omega, e3, e4, e5, fun k hk => ?_, fun k hk hk' => ?_⟩
    · rw [List.range'_succ, List.map_cons, calls, hcall, Option.bind_some, e1]
      rfl
    · rw [e6 k (by omega)]
      exact hDk k (by omega)
    · rcases Nat.eq_or_lt_of_le hk with rfl | hk
      · rw [e6 m (by omega)]
        exact hDm
      · rw [e7 k hk (by omega)]
        simp only [hDk k (by omega : k ≠ m)]

/-- The first call of a new time sets the counter back. -/
theorem call_new (s : State) (h1 : s.store ≠ -100) (h2 : s.store ≠ t) (r : Draw) :
    call mu t s r = call mu t ⟨0, s.size, s.dipoles, t, true⟩ r := by
  have : advance t s = advance t ⟨0, s.size, s.dipoles, t, true⟩ := by
    unfold advance
    rw [if_neg (by push Not; exact ⟨h1, h2⟩), if_pos (Or.inr rfl), if_neg (by simp)]
  unfold call
  rw [this]

theorem run_state (n : ℕ) (hn : 0 < n) (h0 : 0 ≤ t0) (r : ℕ → ℕ → Draw) (d : ℕ → Dipole) (T : ℕ) :
    ∃ s, run mu t0 (fun T => (List.range n).map fun m => r m T) (start d) (T + 1) =
        some (s, List.replicate (T + 1) (List.range n)) ∧ s.size = n ∧ s.store = t0 + T ∧
      ∀ m < n, s.dipoles m = history mu t0 (r m) T := by
  induction T with
  | zero =>
    obtain ⟨s', e1, e2, e3, e4, e5, e6, e7⟩ := calls_first (mu := mu) (t := t0 + (0 : ℕ)) (fun m => r m 0) n 0 (start d) rfl rfl
      (Or.inl rfl) rfl
    refine ⟨s', ?_, by omega, e4 hn, fun m hm => ?_⟩
    · rw [run, run, Option.bind_some]
      rw [List.range_eq_range', e1]
      rfl
    · rw [e7 m (by omega) (by omega), Nat.cast_zero, add_zero]
      rfl
  | succ T ih =>
    obtain ⟨s, g1, g2, g3, g4⟩ := ih
    obtain ⟨s', e1, e2, e3, e4, e5, e6, e7⟩ := calls_later (mu := mu) (t := t0 + (T + 1 : ℕ)) (fun m => r m (T + 1)) n 0
      ⟨0, s.size, s.dipoles, t0 + (T + 1 : ℕ), true⟩ rfl (by dsimp only; omega) rfl rfl
    refine ⟨s', ?_, by rw [e3]; exact g2, e4, fun m hm => ?_⟩
    · rw [run, g1, Option.bind_some]
      dsimp only
      have hc : calls mu (t0 + (T + 1 : ℕ)) s ((List.range n).map fun m => r m (T + 1)) = some (s', List.range n) := by
        rw [List.range_eq_range', ← e1]
        obtain ⟨c, rfl⟩ : ∃ c, n = c + 1 := ⟨n - 1, by omega⟩
        rw [List.range'_succ, List.map_cons, calls, calls, call_new s (by omega) (by push_cast at g3 ⊢; omega)]
      rw [hc, List.replicate_succ' (n := T + 1)]
      rfl
    · rw [e7 m (by omega) (by omega)]
      dsimp only
      rw [g4 m hm]
      rfl

/-- **C163** (part): with the same number of dipoles at each time, the `m`-th call uses entry `m` at all times, and
entry `m` holds the history of this dipole, which depends on its own draws only. -/
theorem entries_partial (n : ℕ) (hn : 0 < n) (h0 : 0 ≤ t0) (r : ℕ → ℕ → Draw) (d : ℕ → Dipole) (T : ℕ) :
    ∃ s, run mu t0 (fun T => (List.range n).map fun m => r m T) (start d) (T + 1) =
        some (s, List.replicate (T + 1) (List.range n)) ∧
      ∀ m < n, s.dipoles m = history mu t0 (r m) T := by
  obtain ⟨s, h1, -, -, h2⟩ := run_state (mu := mu) n hn h0 r d T
  exact ⟨s, h1, h2⟩

/-- **C163** (negation): one more dipole at any later time uses an entry outside of the arrays. -/
theorem growth_fails (n : ℕ) (hn : 0 < n) (h0 : 0 ≤ t0) (r : ℕ → ℕ → Draw) (d : ℕ → Dipole) (T : ℕ) (x : Draw)
    (rs : List Draw) (hrs : rs.length = n) :
    run mu t0 (fun S => if S = T + 1 then rs ++ [x] else (List.range n).map fun m => r m S) (start d) (T + 2) = none := by
  have hcongr : ∀ S, S ≤ T + 1 → run mu t0 (fun S => if S = T + 1 then rs ++ [x] else (List.range n).map fun m => r m S)
      (start d) S = run mu t0 (fun S => (List.range n).map fun m => r m S) (start d) S := by
    intro S
    induction S with
    | zero => exact fun _ => rfl
    | succ S ih =>
      intro hS
      rw [run, run, ih (by omega), if_neg (by omega)]
  obtain ⟨s, g1, g2, g3, -⟩ := run_state (mu := mu) n hn h0 r d T
  rw [run, hcongr (T + 1) le_rfl, g1, Option.bind_some, if_pos rfl]
  dsimp only
  rw [Option.map_eq_none_iff]
  have hlist : rs ++ [x] = ((List.range' 0 n).map fun m => rs.getD m x) ++ [x] := by
    congr 1
    refine List.ext_getElem (by simp [hrs]) fun i h1 h2 => ?_
    simp [List.getD, h1]
  have happ : ∀ (l : List Draw) (s1 s2 : State) (u : List ℕ), calls mu (t0 + (T + 1 : ℕ)) s1 l = some (s2, u) →
      call mu (t0 + (T + 1 : ℕ)) s2 x = none → calls mu (t0 + (T + 1 : ℕ)) s1 (l ++ [x]) = none := by
    intro l
    induction l with
    | nil =>
      intro s1 s2 u h1 h2
      simp only [calls, Option.some.injEq, Prod.mk.injEq] at h1
      rw [List.nil_append, calls, h1.1, h2]
      rfl
    | cons a l ih =>
      intro s1 s2 u h1 h2
      rw [calls, Option.bind_eq_some_iff] at h1
      obtain ⟨b, hb, h1⟩ := h1
      rw [Option.map_eq_some_iff] at h1
      obtain ⟨c, hc, h1⟩ := h1
      rw [Prod.mk.injEq] at h1
      rw [List.cons_append, calls, hb, Option.bind_some, ih b.1 s2 c.2 (by rw [hc, ← h1.1]) h2]
      rfl
  obtain ⟨s', e1, e2, e3, e4, e5, e6, e7⟩ := calls_later (mu := mu) (t := t0 + (T + 1 : ℕ)) (fun m => rs.getD m x) n 0
    ⟨0, s.size, s.dipoles, t0 + (T + 1 : ℕ), true⟩ rfl (by dsimp only; omega) rfl rfl
  have hnew : calls mu (t0 + (T + 1 : ℕ)) s ((List.range' 0 n).map fun m => rs.getD m x) = some (s', List.range' 0 n) := by
    rw [← e1]
    obtain ⟨c, hc⟩ : ∃ c, n = c + 1 := ⟨n - 1, by omega⟩
    rw [hc, List.range'_succ, List.map_cons, calls, calls, call_new s (by omega) (by push_cast at g3 ⊢; omega)]
  rw [hlist]
  refine happ _ s s' _ hnew ?_
  have hadv : advance (t0 + (T + 1 : ℕ)) s' = ⟨s'.num + 1, s'.size, s'.dipoles, t0 + (T + 1 : ℕ), s'.round⟩ := by
    unfold advance
    rw [if_pos (Or.inr e4), if_neg (by rw [e5]; simp)]
  unfold call
  rw [hadv]
  dsimp only
  dsimp only at e3
  rw [if_neg (by omega)]

/-! ### Renewals -/

/-- **C163** (part): if all waiting times are at least one, at each time the next renewal of a dipole lies in the future, and at
this time, and at no time before, new values are drawn. -/
theorem renewal_partial (r : ℕ → Draw) (hg : ∀ T, 1 ≤ |mu + (r T).g|) (T : ℕ) :
    t0 + T < (history mu t0 r T).tau ∧
      ∃ S, T < S ∧ history mu t0 r S = renew mu (t0 + S) (r S) ∧ ∀ R, T ≤ R → R < S → history mu t0 r R = history mu t0 r T := by
  have hgap : ∀ S, 1 ≤ gaussianDist mu (r S).g := fun S => by
    unfold gaussianDist
    rw [Int.le_floor]
    exact_mod_cast hg S
  have hfut : ∀ T : ℕ, t0 + T < (history mu t0 r T).tau := fun T => by
    induction T with
    | zero =>
      have := hgap 0
      simp only [history, renew, Nat.cast_zero]
      omega
    | succ T ih =>
      rw [history]
      split_ifs with h
      · have := hgap (T + 1)
        simp only [renew]
        omega
      · push_cast at h ⊢
        omega
  refine ⟨hfut T, ?_⟩
  have h1 := hfut T
  obtain ⟨c, hc⟩ : ∃ c : ℕ, (history mu t0 r T).tau = t0 + T + 1 + c := ⟨((history mu t0 r T).tau - (t0 + T + 1)).toNat, by omega⟩
  have hconst : ∀ a ≤ c, history mu t0 r (T + a) = history mu t0 r T := fun a => by
    induction a with
    | zero => exact fun _ => rfl
    | succ a ih =>
      intro ha
      rw [show T + (a + 1) = (T + a) + 1 by omega, history, ih (by omega), if_neg]
      rw [hc]
      push_cast
      omega
  refine ⟨T + c + 1, by omega, ?_, fun R hR hS => ?_⟩
  · rw [history, hconst c le_rfl, if_pos]
    rw [hc]
    push_cast
    ring
  · obtain ⟨a, rfl⟩ : ∃ a, R = T + a := ⟨R - T, by omega⟩
    exact hconst a (by omega)

/-- **C163** (negation): if the waiting time of a renewal is below one, the dipole keeps its values for ever. -/
theorem renewal_fails (r : ℕ → Draw) (T : ℕ) (hT : history mu t0 r T = renew mu (t0 + T) (r T)) (hg : |mu + (r T).g| < 1) (S : ℕ)
    (hS : T ≤ S) : history mu t0 r S = renew mu (t0 + T) (r T) := by
  obtain ⟨a, rfl⟩ : ∃ a, S = T + a := ⟨S - T, by omega⟩
  have h0 : gaussianDist mu (r T).g = 0 := by
    unfold gaussianDist
    rw [Int.floor_eq_zero_iff]
    exact ⟨abs_nonneg _, hg⟩
  induction a with
  | zero => exact hT
  | succ a ih =>
    rw [show T + (a + 1) = (T + a) + 1 by omega, history, ih (by omega), if_neg]
    simp only [renew, h0]
    push_cast
    omega

/-! ### Amplitudes -/

/-- The envelope of a Gaussian pulse. -/
noncomputable def gaussEnv (t0 tdecay t : ℤ) : ℝ :=
  if |t - t0| < 3 * tdecay then Real.exp (-(((t : ℝ) - t0) / tdecay) ^ 2) else 0

/-- The envelope of a Lorentzian pulse: zero before `t0`, then `exp (- (t - t0) / tdecay)` for eight decay times, or
`1` without decay. -/
noncomputable def lorentzEnv (t0 tdecay t : ℤ) : ℝ :=
  if t < t0 then 0 else if tdecay = 0 then 1 else if t < t0 + 8 * tdecay then Real.exp (-((t : ℝ) - t0) / tdecay) else 0

theorem phasor (x : ℝ) : (Real.sin x : ℂ) + Complex.I * (-Real.cos x : ℝ) = -Complex.I * Complex.exp (Complex.I * x) := by
  rw [mul_comm Complex.I (x : ℂ), Complex.exp_mul_I]
  push_cast
  linear_combination Complex.sin x * Complex.I_mul_I

/-- **C163**: the two Gaussian amplitudes are the parts of one rotating phasor. -/
theorem gauss_phasor (w phase : ℝ) (t0 tdecay t : ℤ) :
    (gaussAmp w phase t0 tdecay t : ℂ) + Complex.I * iGaussAmp w phase t0 tdecay t =
      gaussEnv t0 tdecay t * (-Complex.I * Complex.exp (Complex.I * (w * t + phase : ℝ))) := by
  unfold gaussAmp iGaussAmp gaussEnv
  rw [← phasor]
  by_cases h : t0 - 3 * tdecay < t ∧ t < t0 + 3 * tdecay
  · rw [if_pos h, if_pos h, if_pos (by rw [abs_lt]; omega)]
    push_cast
    rw [neg_one_mul]
    ring
  · rw [if_neg h, if_neg h, if_neg (by rw [abs_lt]; omega)]
    simp

/-- **C163** (part): the same for the Lorentzian with decay. -/
theorem lorentz_partial (w phase : ℝ) (t0 tdecay t : ℤ) (hd : 0 < tdecay) :
    (lorentzAmp w phase t0 tdecay t : ℂ) + Complex.I * iLorentzAmp w phase t0 tdecay t =
      lorentzEnv t0 tdecay t * (-Complex.I * Complex.exp (Complex.I * (w * (t - t0) + phase : ℝ))) := by
  unfold lorentzAmp iLorentzAmp lorentzEnv
  rw [← phasor, if_neg hd.ne', if_neg hd.ne', if_neg hd.ne']
  by_cases h : t0 ≤ t ∧ t < t0 + 8 * tdecay
  · rw [if_pos h, if_pos h, if_neg (by omega), if_pos h.2]
    push_cast
    ring
  · rw [if_neg h, if_neg h]
    by_cases h1 : t < t0
    · rw [if_pos h1]
      simp
    · rw [if_neg h1, if_neg (by omega)]
      simp

/-- **C163** (negation): without decay the imaginary amplitude is always zero and the real one never, so from `t0` on the
phasor is right only when the cosine is zero, and before `t0` the source is off only when the sine is zero. -/
theorem lorentz_fails (w phase : ℝ) (t0 t : ℤ) :
    (lorentzAmp w phase t0 0 t : ℂ) + Complex.I * iLorentzAmp w phase t0 0 t =
      lorentzEnv t0 0 t * (-Complex.I * Complex.exp (Complex.I * (w * (t - t0) + phase : ℝ))) ↔
    if t0 ≤ t then Real.cos (w * (t - t0) + phase) = 0 else Real.sin (w * (t - t0) + phase) = 0 := by
  have h1 : iLorentzAmp w phase t0 0 t = 0 := by
    unfold iLorentzAmp
    rw [if_neg (by omega)]
  have h2 : lorentzAmp w phase t0 0 t = Real.sin (w * (t - t0) + phase) := by
    unfold lorentzAmp
    rw [if_pos rfl]
    push_cast
    rfl
  rw [h1, h2, ← phasor]
  generalize Real.sin (w * (t - t0) + phase) = a
  generalize Real.cos (w * (t - t0) + phase) = b
  unfold lorentzEnv
  rw [if_pos (rfl : (0 : ℤ) = 0)]
  by_cases h : t0 ≤ t
  · rw [if_neg (not_lt.2 h), if_pos h, Complex.ext_iff]
    simp [eq_comm]
  · rw [if_pos (not_le.1 h), if_neg h, Complex.ext_iff]
    simp

/-! ### Directions -/

/-- **C163**: the current has the size of the amplitude. -/
theorem current_norm (a : ℝ) (d : Dipole) (h : d.theta ^ 2 ≤ 1) :
    (current a d).1 ^ 2 + (current a d).2.1 ^ 2 + (current a d).2.2 ^ 2 = a ^ 2 := by
  unfold current
  dsimp only
  have hs := Real.sq_sqrt (show 0 ≤ 1 - d.theta * d.theta by nlinarith)
  have hc := Real.sin_sq_add_cos_sq d.phi
  linear_combination a ^ 2 * (Real.cos d.phi ^ 2 + Real.sin d.phi ^ 2) * hs + a ^ 2 * (1 - d.theta ^ 2) * hc

theorem angle_exists (a b : ℝ) (h : a ^ 2 + b ^ 2 = 1) : ∃ φ, 0 ≤ φ ∧ φ < 2 * Real.pi ∧ Real.cos φ = a ∧ Real.sin φ = b := by
  have hz : ‖(⟨a, b⟩ : ℂ)‖ = 1 := by
    rw [← sq_eq_sq₀ (norm_nonneg _) zero_le_one, Complex.sq_norm, Complex.normSq_mk, one_pow]
    linarith
  have hne : (⟨a, b⟩ : ℂ) ≠ 0 := fun h0 => by
    rw [h0] at hz
    simp at hz
  have hcos : Real.cos (Complex.arg ⟨a, b⟩) = a := by
    rw [Complex.cos_arg hne, hz]
    simp
  have hsin : Real.sin (Complex.arg ⟨a, b⟩) = b := by
    rw [Complex.sin_arg, hz]
    simp
  have h1 := Complex.neg_pi_lt_arg ⟨a, b⟩
  have h2 := Complex.arg_le_pi ⟨a, b⟩
  have hpi := Real.pi_pos
  by_cases h0 : 0 ≤ Complex.arg ⟨a, b⟩
  · exact ⟨_, h0, by linarith, hcos, hsin⟩
  · push Not at h0
    refine ⟨Complex.arg ⟨a, b⟩ + 2 * Real.pi, by linarith, by linarith, ?_, ?_⟩
    · rw [Real.cos_add_two_pi, hcos]
    · rw [Real.sin_add_two_pi, hsin]

/-- Values that `get_random_float` can return. -/
def Drawn (d : Dipole) : Prop :=
  (0 ≤ d.theta ∧ d.theta < 1) ∧ (0 ≤ d.phi ∧ d.phi < 2 * Real.pi) ∧ (0 ≤ d.eps ∧ d.eps < 2 * Real.pi)

/-- **C163**: what a renewal draws.  Random numbers from the unit interval give values in these ranges, and all values in the
ranges come up, in every combination. -/
theorem draws (mu : ℝ) (t : ℤ) :
    (∀ r : Draw, (0 ≤ r.u1 ∧ r.u1 < 1) → (0 ≤ r.u2 ∧ r.u2 < 1) → (0 ≤ r.u3 ∧ r.u3 < 1) → Drawn (renew mu t r)) ∧
    ∀ d, Drawn d → ∃ r : Draw, (0 ≤ r.u1 ∧ r.u1 < 1) ∧ (0 ≤ r.u2 ∧ r.u2 < 1) ∧ (0 ≤ r.u3 ∧ r.u3 < 1) ∧
      (renew mu t r).theta = d.theta ∧ (renew mu t r).phi = d.phi ∧ (renew mu t r).eps = d.eps := by
  have hpi := Real.pi_pos
  refine ⟨fun r h1 h2 h3 => ?_, fun d hd => ?_⟩
  · unfold renew
    refine ⟨⟨by linarith, by linarith⟩, ⟨?_, ?_⟩, ⟨?_, ?_⟩⟩
    · exact mul_nonneg (by linarith) h2.1
    · show 2 * Real.pi * r.u2 < 2 * Real.pi
      nlinarith
    · exact mul_nonneg (by linarith) h3.1
    · show 2 * Real.pi * r.u3 < 2 * Real.pi
      nlinarith
  · obtain ⟨⟨a1, a2⟩, ⟨b1, b2⟩, c1, c2⟩ := hd
    have hp : 0 < 2 * Real.pi := by linarith
    refine ⟨⟨d.theta, d.phi / (2 * Real.pi), d.eps / (2 * Real.pi), 0⟩, ⟨a1, a2⟩, ⟨div_nonneg b1 hp.le, ?_⟩,
      ⟨div_nonneg c1 hp.le, ?_⟩, ?_, ?_, ?_⟩
    · show d.phi / (2 * Real.pi) < 1
      rw [div_lt_one hp]; exact b2
    · show d.eps / (2 * Real.pi) < 1
      rw [div_lt_one hp]; exact c2
    · show 1 * d.theta = d.theta
      ring
    · show 2 * Real.pi * (d.phi / (2 * Real.pi)) = d.phi
      field_simp
    · show 2 * Real.pi * (d.eps / (2 * Real.pi)) = d.eps
      field_simp

/-- **C163**: directions from the upper half sphere suffice: every dipole with any direction `v` other than the two poles and
any phase has the same Gaussian current, at all times, as one with values that the code can draw. -/
theorem half_sphere (w phase : ℝ) (v : ℝ × ℝ × ℝ) (hv : v.1 ^ 2 + v.2.1 ^ 2 + v.2.2 ^ 2 = 1) (hz : v.2.2 ^ 2 < 1) (t0 tdecay : ℤ) :
    ∃ d, Drawn d ∧ ∀ t, current (gaussAmp w d.eps t0 tdecay t) d =
      (gaussAmp w phase t0 tdecay t * v.1, gaussAmp w phase t0 tdecay t * v.2.1, gaussAmp w phase t0 tdecay t * v.2.2) := by
  have key : ∀ (phase : ℝ) (v : ℝ × ℝ × ℝ), v.1 ^ 2 + v.2.1 ^ 2 + v.2.2 ^ 2 = 1 → v.2.2 ^ 2 < 1 → 0 ≤ v.2.2 →
      ∃ d, Drawn d ∧ ∀ t, current (gaussAmp w d.eps t0 tdecay t) d =
        (gaussAmp w phase t0 tdecay t * v.1, gaussAmp w phase t0 tdecay t * v.2.1, gaussAmp w phase t0 tdecay t * v.2.2) := by
    rintro phase ⟨x, y, z⟩ hv hz h0
    dsimp only at hv hz h0 ⊢
    have hs0 : 0 < Real.sqrt (1 - z * z) := Real.sqrt_pos.2 (by nlinarith)
    have hs := Real.sq_sqrt (show 0 ≤ 1 - z * z by nlinarith)
    obtain ⟨φ, f0, f1, fc, fs⟩ := angle_exists (x / Real.sqrt (1 - z * z)) (y / Real.sqrt (1 - z * z)) (by
      rw [div_pow, div_pow, ← add_div, div_eq_one_iff_eq (by positivity), hs]
      linarith)
    obtain ⟨ε, g0, g1, gc, gs⟩ := angle_exists (Real.cos phase) (Real.sin phase) (by
      linarith [Real.sin_sq_add_cos_sq phase])
    have hamp : ∀ t, gaussAmp w ε t0 tdecay t = gaussAmp w phase t0 tdecay t := fun t => by
      unfold gaussAmp
      rw [Real.sin_add, Real.sin_add, gc, gs]
    refine ⟨⟨z, φ, ε, 0⟩, ⟨⟨h0, by nlinarith⟩, ⟨f0, f1⟩, g0, g1⟩, fun t => ?_⟩
    unfold current
    dsimp only
    rw [hamp, fc, fs]
    refine Prod.ext ?_ (Prod.ext ?_ rfl)
    · exact (mul_assoc _ _ _).trans (by rw [mul_div_cancel₀ _ hs0.ne'])
    · exact (mul_assoc _ _ _).trans (by rw [mul_div_cancel₀ _ hs0.ne'])
  by_cases h0 : 0 ≤ v.2.2
  · exact key phase v hv hz h0
  · push Not at h0
    obtain ⟨d, hd, h⟩ := key (phase + Real.pi) (-v.1, -v.2.1, -v.2.2) (by dsimp only; linarith) (by dsimp only; linarith)
      (by dsimp only; linarith)
    refine ⟨d, hd, fun t => ?_⟩
    have hneg : gaussAmp w (phase + Real.pi) t0 tdecay t = -gaussAmp w phase t0 tdecay t := by
      unfold gaussAmp
      rw [← add_assoc, Real.sin_add_pi]
      split_ifs
      · ring
      · simp
    rw [h t, hneg]
    simp

/-! ### Grid -/

theorem add_apply (p q : Node) (v : ℝ) (X : Node → ℝ) : add p v X q = X q + if q = p then v else 0 := by
  unfold add
  rw [Function.update_apply]
  split_ifs with h
  · rw [h]
  · rw [add_zero]

/-- **C163**: the current is added to the two edges beside the node in its direction, in equal parts, and to no other edge. -/
theorem deposit_spec (i j k : ℤ) (J : ℝ × ℝ × ℝ) (E : (Node → ℝ) × (Node → ℝ) × (Node → ℝ)) (q : Node) :
    ((deposit i j k J E).1 q = E.1 q + if q = (i, j, k) ∨ q = (i - 1, j, k) then J.1 / 2 else 0) ∧
      ((deposit i j k J E).2.1 q = E.2.1 q + if q = (i, j, k) ∨ q = (i, j - 1, k) then J.2.1 / 2 else 0) ∧
      ((deposit i j k J E).2.2 q = E.2.2 q + if q = (i, j, k) ∨ q = (i, j, k - 1) then J.2.2 / 2 else 0) := by
  have key : ∀ (a b : Node) (v : ℝ) (X : Node → ℝ), a ≠ b → add a v (add b v X) q = X q + if q = b ∨ q = a then v else 0 := by
    intro a b v X hab
    rw [add_apply, add_apply]
    by_cases h1 : q = b
    · rw [if_pos h1, if_pos (Or.inl h1), if_neg (by rw [h1]; exact hab.symm), add_zero]
    · rw [if_neg h1, add_zero]
      by_cases h2 : q = a
      · rw [if_pos h2, if_pos (Or.inr h2)]
      · rw [if_neg h2, if_neg (by tauto)]
  unfold deposit
  refine ⟨key _ _ _ _ ?_, key _ _ _ _ ?_, key _ _ _ _ ?_⟩ <;> simp

/-- **C163**: the node is the nearest one. -/
theorem position_nearest (x center : ℝ) (lattice : ℤ) (n : ℤ) :
    |(x + center) * lattice - position x center lattice| ≤ |(x + center) * lattice - n| := by
  unfold position
  obtain ⟨y, hy⟩ : ∃ y, y = (x + center) * lattice := ⟨_, rfl⟩
  rw [← hy, show 1 / 2 + y = y + 1 / 2 by ring, ← round_eq]
  exact round_le y n

/-! ### Examples -/

/-- Waiting times of two, starting at the time zero. -/
example : ∀ T : ℕ, 1 ≤ |(2 : ℝ) + ((fun _ => (⟨0, 0, 0, 0⟩ : Draw)) T).g| := fun T => by norm_num

/-- A direction in the lower half sphere. -/
example : (3 / 5 : ℝ) ^ 2 + 0 ^ 2 + (-4 / 5) ^ 2 = 1 ∧ (-4 / 5 : ℝ) ^ 2 < 1 := by norm_num

/-- A renewal with the waiting time one half. -/
example (r : ℕ → Draw) (h : (r 0).g = -3 / 2) : history 2 0 r 0 = renew 2 (0 + (0 : ℕ)) (r 0) ∧ |2 + (r 0).g| < 1 := by
  rw [h]
  refine ⟨by simp [history], ?_⟩
  rw [abs_lt]
  norm_num

end OpenMS.Incoherent
