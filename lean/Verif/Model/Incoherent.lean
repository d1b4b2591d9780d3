import Mathlib.Tactic
import Mathlib.Analysis.SpecialFunctions.Trigonometric.Basic
import Mathlib.Analysis.SpecialFunctions.Exp

/-!
# Incoherent dipoles of the Maxwell solver

Model of `/repo/openms/lib/fdtd/incoherent.c`.  The random numbers are arguments; numbers are exact and integers have
no bound (`random_on` takes an `int`).  The grid is given by its center and resolution.
-/

namespace OpenMS.Incoherent

/-- The entries of `p_theta_aux`, `p_phi`, `p_eps` and `p_tau` of one dipole. -/
structure Dipole where
  theta : ℝ
  phi : ℝ
  eps : ℝ
  tau : ℤ

/-- `incoherent.c` L7-15: the global variables; `size` is the number of entries of the arrays. -/
structure State where
  num : ℕ
  size : ℕ
  dipoles : ℕ → Dipole
  store : ℤ
  round : Bool

/-- `incoherent.c` L7-15: before the first call. -/
def start (d : ℕ → Dipole) : State := ⟨0, 0, d, -100, false⟩

/-- The random numbers of one call: two of `gsl_rng_uniform` and one more, and the value of `gsl_ran_gaussian`. -/
structure Draw where
  u1 : ℝ
  u2 : ℝ
  u3 : ℝ
  g : ℝ

/-- `incoherent.c` L145-147: `get_Gaussian_dist`, a `long`. -/
noncomputable def gaussianDist (mu g : ℝ) : ℤ := ⌊|mu + g|⌋

/-- `incoherent.c` L50-58: new values at the time `t`; L141-143: `get_random_float`. -/
noncomputable def renew (mu : ℝ) (t : ℤ) (r : Draw) : Dipole :=
  ⟨1 * r.u1, 2 * Real.pi * r.u2, 2 * Real.pi * r.u3, t + gaussianDist mu r.g⟩

/-- `incoherent.c` L24-43: the counter of the dipoles at the time `t`. -/
def advance (t : ℤ) (s : State) : State :=
  if s.store = -100 ∨ s.store = t then
    if s.round = false then
      ⟨s.num + 1, s.num + 1, Function.update s.dipoles s.num { s.dipoles s.num with tau := t }, t, s.round⟩
    else ⟨s.num + 1, s.size, s.dipoles, t, s.round⟩
  else ⟨1, s.size, s.dipoles, t, true⟩

/-- `incoherent.c` L24-61: one call at the time `t`; the entry that is used comes with the new state.  `none`: it is outside of
the arrays. -/
noncomputable def call (mu : ℝ) (t : ℤ) (s : State) (r : Draw) : Option (State × ℕ) :=
  let s1 := advance t s
  let n := s1.num - 1
  if n < s1.size then
    some (if t = (s1.dipoles n).tau then { s1 with dipoles := Function.update s1.dipoles n (renew mu t r) } else s1, n)
  else none

/-- The calls for the dipoles with the draws `rs`, one after the other, at the time `t`; the entries that were used come
with the new state. -/
noncomputable def calls (mu : ℝ) (t : ℤ) : State → List Draw → Option (State × List ℕ)
  | s, [] => some (s, [])
  | s, r :: rs => (call mu t s r).bind fun a => (calls mu t a.1 rs).map fun b => (b.1, a.2 :: b.2)

/-- The times `t0`, …, `t0 + T - 1` with the draws of each time. -/
noncomputable def run (mu : ℝ) (t0 : ℤ) (draws : ℕ → List Draw) (s : State) : ℕ → Option (State × List (List ℕ))
  | 0 => some (s, [])
  | T + 1 => (run mu t0 draws s T).bind fun a =>
      (calls mu (t0 + T) a.1 (draws T)).map fun b => (b.1, a.2 ++ [b.2])

/-! ### Amplitudes -/

/-- `incoherent.c` L161 and others: the phase per unit of time, `2 * pi * frequency / S_factor / ds_x / lattice_x`. -/
noncomputable def omega (frequency S ds lattice : ℝ) : ℝ := 2 * Real.pi * frequency / S / ds / lattice

/-- `incoherent.c` L159-165: `Gauss_amp`, with `w` the phase per unit of time. -/
noncomputable def gaussAmp (w phase : ℝ) (t0 tdecay t : ℤ) : ℝ :=
  if t0 - 3 * tdecay < t ∧ t < t0 + 3 * tdecay then
    Real.sin (w * t + phase) * Real.exp (-1 * (((t - t0 : ℤ) : ℝ) / tdecay) ^ 2)
  else 0

/-- `incoherent.c` L167-179: `Lorentz_amp`. -/
noncomputable def lorentzAmp (w phase : ℝ) (t0 tdecay t : ℤ) : ℝ :=
  if tdecay = 0 then Real.sin (w * (t - t0 : ℤ) + phase)
  else if t0 ≤ t ∧ t < t0 + 8 * tdecay then
    Real.sin (w * (t - t0 : ℤ) + phase) * Real.exp (-((t - t0 : ℤ) : ℝ) / tdecay)
  else 0

/-- `incoherent.c` L181-187: `iGauss_amp`. -/
noncomputable def iGaussAmp (w phase : ℝ) (t0 tdecay t : ℤ) : ℝ :=
  if t0 - 3 * tdecay < t ∧ t < t0 + 3 * tdecay then
    -Real.cos (w * t + phase) * Real.exp (-1 * (((t - t0 : ℤ) : ℝ) / tdecay) ^ 2)
  else 0

/-- `incoherent.c` L189-202: `iLorentz_amp`. -/
noncomputable def iLorentzAmp (w phase : ℝ) (t0 tdecay t : ℤ) : ℝ :=
  if t0 ≤ t ∧ t < t0 + 8 * tdecay then
    if tdecay = 0 then -Real.cos (w * (t - t0 : ℤ) + phase)
    else -Real.cos (w * (t - t0 : ℤ) + phase) * Real.exp (-((t - t0 : ℤ) : ℝ) / tdecay)
  else 0

/-! ### Currents -/

/-- `incoherent.c` L65-75: the three components of the current for the amplitude `a`. -/
noncomputable def current (a : ℝ) (d : Dipole) : ℝ × ℝ × ℝ :=
  (a * Real.sqrt (1 - d.theta * d.theta) * Real.cos d.phi, a * Real.sqrt (1 - d.theta * d.theta) * Real.sin d.phi,
    a * d.theta)

/-- `incoherent.c` L46-48: the index of the dipole along one axis. -/
noncomputable def position (x center : ℝ) (lattice : ℤ) : ℤ := ⌊1 / 2 + (x + center) * lattice⌋

/-- The indices of a node. -/
abbrev Node := ℤ × ℤ × ℤ

/-- `X[p] = X[p] + v`. -/
noncomputable def add (p : Node) (v : ℝ) (X : Node → ℝ) : Node → ℝ := Function.update X p (X p + v)

/-- `incoherent.c` L116-121 and L125-130: half of the current on each side of the node. -/
noncomputable def deposit (i j k : ℤ) (J : ℝ × ℝ × ℝ) (E : (Node → ℝ) × (Node → ℝ) × (Node → ℝ)) :
    (Node → ℝ) × (Node → ℝ) × (Node → ℝ) :=
  (add (i - 1, j, k) (J.1 / 2) (add (i, j, k) (J.1 / 2) E.1),
   add (i, j - 1, k) (J.2.1 / 2) (add (i, j, k) (J.2.1 / 2) E.2.1),
   add (i, j, k - 1) (J.2.2 / 2) (add (i, j, k) (J.2.2 / 2) E.2.2))

end OpenMS.Incoherent
