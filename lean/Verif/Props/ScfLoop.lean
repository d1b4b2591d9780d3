import Verif.Model.ScfLoop
import Verif.Model.ScQedHF
import Mathlib.Tactic.Linarith
import Mathlib.Tactic.Ring
import Mathlib.Tactic.NormNum
import Mathlib.Tactic.FieldSimp
import Mathlib.Algebra.BigOperators.Ring.Finset

/-!
# SCF driver (C43, C44), initial orbitals (C42), parameter vectors (C45), original representation
(C46)
-/

namespace OpenMS.Scf

set_option linter.unusedSectionVars false
set_option linter.unusedSimpArgs false

/-! ### C44 -/

/-- Specification: cycle `c` is within the tolerances. -/
def Within (tol tolg : ℝ) (r : Run) (c : ℕ) : Prop := |r.e (c + 1) - r.e c| < tol ∧ r.g c < tolg

theorem inLoop_iff (tol tolg : ℝ) (r : Run) (c : ℕ) : inLoop tol tolg r c = true ↔ Within tol tolg r c := by
  simp [inLoop, Within]

theorem loop_spec (tol tolg : ℝ) (r : Run) (k : ℕ) (hk : 0 < k) : ∀ c,
    ((loop tol tolg r c k).1 = true →
      c < (loop tol tolg r c k).2 ∧ (loop tol tolg r c k).2 ≤ c + k ∧
      Within tol tolg r ((loop tol tolg r c k).2 - 1) ∧
      ∀ d, c ≤ d → d + 1 < (loop tol tolg r c k).2 → ¬ Within tol tolg r d) ∧
    ((loop tol tolg r c k).1 = false →
      (loop tol tolg r c k).2 = c + k ∧ ∀ d, c ≤ d → d < c + k → ¬ Within tol tolg r d) := by
  induction k with
  | zero => omega
  | succ k ih =>
    intro c
    unfold loop
    by_cases h : inLoop tol tolg r c = true
    · rw [if_pos h]
      simp only [forall_const, Bool.true_eq_false, false_implies, and_true]
      refine ⟨by omega, by omega, by simpa using (inLoop_iff _ _ _ _).1 h, ?_⟩
      intro d h1 h2; omega
    · rw [if_neg h]
      have hc : ¬ Within tol tolg r c := fun hw => h ((inLoop_iff _ _ _ _).2 hw)
      by_cases h0 : k = 0
      · subst h0
        simp only [if_true, Bool.false_eq_true, false_implies, true_and, forall_const]
        intro d h1 h2
        have : d = c := by omega
        rw [this]; exact hc
      · rw [if_neg h0]
        obtain ⟨i1, i2⟩ := ih (by omega) (c + 1)
        refine ⟨?_, ?_⟩
        · intro hv
          obtain ⟨a1, a2, a3, a4⟩ := i1 hv
          refine ⟨by omega, by omega, a3, ?_⟩
          intro d h1 h2
          rcases Nat.eq_or_lt_of_le h1 with h3 | h3
          · rw [← h3]; exact hc
          · exact a4 d h3 h2
        · intro hv
          obtain ⟨a1, a2⟩ := i2 hv
          refine ⟨by omega, ?_⟩
          intro d h1 h2
          rcases Nat.eq_or_lt_of_le h1 with h3 | h3
          · rw [← h3]; exact hc
          · exact a2 d h3 (by omega)

theorem kernel_eq (tol tolg : ℝ) (m : ℕ) (hm : 0 < m) (cc : Bool) (r : Run) :
    (kernel tol tolg m cc r).conv = (loop tol tolg r 0 m).1 ∧
    (kernel tol tolg m cc r).cycles = (loop tol tolg r 0 m).2 ∧
    (kernel tol tolg m cc r).etot =
      if (loop tol tolg r 0 m).1 ∧ cc = true then r.eX (loop tol tolg r 0 m).2
      else r.e (loop tol tolg r 0 m).2 := by
  unfold kernel
  rw [if_neg (by omega)]
  rcases h : loop tol tolg r 0 m with ⟨conv, cycles⟩
  cases conv <;> cases cc <;> simp

/-- C44 (part).  The driver never runs more than the allowed number of cycles.  If it reports
convergence, the last cycle of the loop was the first one within both tolerances.  If it does not,
all cycles were used and none was within the tolerances.  Without the extra cycle the returned
energy is the one of the last cycle.  Missing: with the extra cycle (the default) the returned
energy, orbitals and gradient are those of the extra cycle, and nothing is known about them. -/
theorem converged_partial (tol tolg : ℝ) (maxCycle : ℕ) (cc : Bool) (r : Run) :
    let res := kernel tol tolg maxCycle cc r
    res.cycles ≤ maxCycle ∧
    (res.conv = true → 0 < res.cycles ∧ Within tol tolg r (res.cycles - 1) ∧
      ∀ d, d + 1 < res.cycles → ¬ Within tol tolg r d) ∧
    (res.conv = false → res.cycles = maxCycle ∧ ∀ d, d < maxCycle → ¬ Within tol tolg r d) ∧
    ((cc = false ∨ res.conv = false) → res.etot = r.e res.cycles) := by
  intro res
  rcases Nat.eq_zero_or_pos maxCycle with h0 | hm
  · subst h0
    simp only [res, kernel]
    simp
  · obtain ⟨k1, k2, k3⟩ := kernel_eq tol tolg maxCycle hm cc r
    obtain ⟨l1, l2⟩ := loop_spec tol tolg r maxCycle hm 0
    simp only [res]
    rw [k1, k2, k3]
    refine ⟨?_, ?_, ?_, ?_⟩
    · rcases hc : (loop tol tolg r 0 maxCycle).1 with _ | _
      · have := (l2 hc).1; omega
      · have := (l1 hc).2.1; omega
    · intro hc
      obtain ⟨a1, _, a3, a4⟩ := l1 hc
      exact ⟨a1, a3, fun d hd => a4 d (Nat.zero_le _) hd⟩
    · intro hc
      obtain ⟨a1, a2⟩ := l2 hc
      exact ⟨by omega, fun d hd => a2 d (Nat.zero_le _) (by omega)⟩
    · intro h
      rw [if_neg]
      rintro ⟨h1, h2⟩
      rcases h with h | h
      · rw [h] at h2; exact absurd h2 (by simp)
      · rw [h] at h1; exact absurd h1 (by simp)

/-- A run that converges in its second cycle. -/
example : (kernel (1 / 10) (1 / 10) 5 false ⟨fun k => if k ≤ 1 then k else 1, fun _ => 0, fun _ => 0, fun _ => 0⟩).conv
    = true := by
  norm_num [kernel, loop, inLoop]

/-- C44 fails: the flag does not depend on the extra cycle at all; for any tolerances there is a run
reported as converged whose last evaluated cycle changes the energy and has a gradient beyond ten
and three times the tolerances (and beyond any given bound). -/
theorem converged_fails (tol tolg B : ℝ) (ht : 0 < tol) (htg : 0 < tolg) (maxCycle : ℕ)
    (hm : 0 < maxCycle) :
    ∃ r : Run, (kernel tol tolg maxCycle true r).conv = true ∧
      B < |(kernel tol tolg maxCycle true r).etot - r.e (kernel tol tolg maxCycle true r).cycles| ∧
      B < r.gX (kernel tol tolg maxCycle true r).cycles := by
  let r : Run := ⟨fun _ => 0, fun _ => 0, fun _ => |B| + 1, fun _ => |B| + 1⟩
  have hl : loop tol tolg r 0 maxCycle = (true, 1) := by
    obtain ⟨k, rfl⟩ : ∃ k, maxCycle = k + 1 := ⟨maxCycle - 1, by omega⟩
    unfold loop
    rw [if_pos]
    rw [inLoop_iff]
    simp [Within, r, ht, htg]
  obtain ⟨k1, k2, k3⟩ := kernel_eq tol tolg maxCycle hm true r
  refine ⟨r, ?_, ?_, ?_⟩
  · rw [k1, hl]
  · rw [k3, k2, hl]
    simp only [and_self, if_true, r, sub_zero]
    rw [abs_of_pos (by positivity)]
    linarith [le_abs_self B]
  · rw [k2, hl]
    show B < |B| + 1
    linarith [le_abs_self B]

/-! ### C43 -/

open OpenMS.Photon

variable {X n : Type*} [Fintype X] [Fintype n]

/-- Specification: the potential of a density, `J - K/2` with the self-energy terms
`J_pq = Σ_x g_pq ⟨g⟩`, `K_pq = Σ_x (g D gᵀ)_pq` if requested. -/
noncomputable def potential (s : Ints X n) (dse : Bool) (D : Matrix n n ℝ) : Matrix n n ℝ :=
  Matrix.of fun p q => (∑ i, ∑ j, s.eri i j p q * D j i) - 1 / 2 * (∑ j, ∑ k, s.eri p j k q * D j k) +
    if dse then (∑ x, s.g x p q * (∑ i, ∑ j, D i j * s.g x i j)) -
      1 / 2 * ∑ x, ∑ i, ∑ j, s.g x p i * D i j * s.g x q j else 0

theorem potential_sub (s : Ints X n) (dse : Bool) (D D' : Matrix n n ℝ) :
    potential s dse (D - D') = potential s dse D - potential s dse D' := by
  ext p q
  simp only [potential, Matrix.of_apply, Matrix.sub_apply, mul_sub, sub_mul, Finset.sum_sub_distrib]
  split_ifs <;> ring

theorem potential_zero (s : Ints X n) (dse : Bool) : potential s dse 0 = 0 := by
  ext p q
  simp [potential]

theorem jk_potential (s : Ints X n) (D : Matrix n n ℝ) :
    coulomb s D + vjDse s.g (fun _ => 1) D - (1 / 2 : ℝ) • (exchange s D + vkDse s.g (fun _ => 1) D) =
      potential s true D := by
  ext p q
  simp only [potential, coulomb, exchange, vjDse, vkDse, contract, Matrix.sub_apply, Matrix.add_apply,
    Matrix.smul_apply, Matrix.of_apply, smul_eq_mul, if_true, mul_one]
  have : ∑ x, ∑ r, s.g x p r * ∑ t, s.g x q t * D r t = ∑ x, ∑ i, ∑ j, s.g x p i * D i j * s.g x q j := by
    refine Finset.sum_congr rfl fun x _ => Finset.sum_congr rfl fun r _ => ?_
    rw [Finset.mul_sum]
    exact Finset.sum_congr rfl fun t _ => by ring
  rw [this]
  ring

theorem jk_bare (s : Ints X n) (D : Matrix n n ℝ) :
    coulomb s D - (1 / 2 : ℝ) • exchange s D = potential s false D := by
  ext p q
  simp [potential, coulomb, exchange]

/-- A routine for `J` and `K` that, when it returns, returns those of the potential `V`. -/
def Gives (jk : Bool → Bool → Matrix n n ℝ → Option ((Matrix n n ℝ × Matrix n n ℝ) × Bool))
    (V : Matrix n n ℝ → Matrix n n ℝ) : Prop :=
  ∀ eri mem D r, jk eri mem D = some r → r.1.1 - (1 / 2 : ℝ) • r.1.2 = V D

theorem getJk_gives (s : Ints X n) : Gives (getJk s) (potential s s.addDse) := by
  intro eri mem D r h
  unfold getJk at h
  split_ifs at h with h1 h2
  · obtain rfl := Option.some.inj h; rw [h2]; exact jk_potential s D
  · obtain rfl := Option.some.inj h
    rw [Bool.eq_false_iff.2 h2]
    exact jk_bare s D

theorem getBareJk_gives (s : Ints X n) : Gives (getBareJk s) (potential s false) := by
  intro eri mem D r h
  unfold getBareJk at h
  split_ifs at h with h1 <;> (obtain rfl := Option.some.inj h; exact jk_bare s D)

theorem history_spec {jk : Bool → Bool → Matrix n n ℝ → Option ((Matrix n n ℝ × Matrix n n ℝ) × Bool)}
    {V : Matrix n n ℝ → Matrix n n ℝ} (hjk : Gives jk V) (hs : ∀ D D', V (D - D') = V D - V D')
    (h0 : V 0 = 0) (direct eri0 : Bool) (h : List (Bool × Matrix n n ℝ)) (st : VState n)
    (hst : history jk direct eri0 h = some st) :
    st.vhfLast = V st.dmLast ∧ st.dmLast = ((h.map Prod.snd).getLast?).getD 0 := by
  induction h using List.reverseRecOn generalizing st with
  | nil =>
    simp only [history, List.foldl_nil, Option.some.injEq] at hst
    subst hst
    exact ⟨h0.symm, rfl⟩
  | append_singleton h c ih =>
    have hstep : history jk direct eri0 (h ++ [c]) =
        (history jk direct eri0 h).bind fun st => veff jk direct st c.1 c.2 := by
      unfold history; rw [List.foldl_append]; rfl
    rw [hstep] at hst
    obtain ⟨st', h1, h2⟩ := Option.bind_eq_some_iff.1 hst
    obtain ⟨i1, i2⟩ := ih st' h1
    unfold veff at h2
    split_ifs at h2 with h3
    · obtain ⟨r, hr, rfl⟩ := Option.map_eq_some_iff.1 h2
      exact ⟨hjk _ _ _ _ hr, by simp⟩
    · obtain ⟨r, hr, rfl⟩ := Option.map_eq_some_iff.1 h2
      refine ⟨?_, by simp⟩
      simp only
      rw [hjk _ _ _ _ hr, hs, i1, sub_add_cancel]

/-- C43, bare potential: every history of calls, with the integrals in memory, computed on the
fly, or becoming available on the way, returns, and the potential after every call is the one
computed from the full density of that call. -/
theorem incremental_bare (s : Ints X n) (direct eri0 : Bool) (h : List (Bool × Matrix n n ℝ)) :
    ∃ st, history (getBareJk s) direct eri0 h = some st ∧
      st.vhfLast = potential s false (((h.map Prod.snd).getLast?).getD 0) := by
  have hex : ∃ st, history (getBareJk s) direct eri0 h = some st := by
    induction h using List.reverseRecOn with
    | nil => exact ⟨_, rfl⟩
    | append_singleton h c ih =>
      obtain ⟨st, hst⟩ := ih
      have hstep : history (getBareJk s) direct eri0 (h ++ [c]) =
          (history (getBareJk s) direct eri0 h).bind fun st => veff (getBareJk s) direct st c.1 c.2 := by
        unfold history; rw [List.foldl_append]; rfl
      rw [hstep, hst]
      simp only [Option.bind_some, veff, getBareJk]
      split_ifs <;> exact ⟨_, rfl⟩
  obtain ⟨st, hst⟩ := hex
  obtain ⟨h1, h2⟩ := history_spec (getBareJk_gives s) (potential_sub s false) (potential_zero s false)
    direct eri0 h st hst
  exact ⟨st, hst, by rw [h1, h2]⟩

/-- C43 (part).  For the potential with self-energy terms: whenever a history of calls returns,
the potential is the one computed from the full density of the last call.  It returns if the
integrals are present or fit in memory at the first call.  Missing: they do not fit. -/
theorem incremental_partial (s : Ints X n) (direct eri0 : Bool) (h : List (Bool × Matrix n n ℝ)) :
    (∀ st, history (getJk s) direct eri0 h = some st →
      st.vhfLast = potential s s.addDse (((h.map Prod.snd).getLast?).getD 0)) ∧
    ((eri0 = true ∨ ∀ c, h.head? = some c → c.1 = true) →
      ∃ st, history (getJk s) direct eri0 h = some st) := by
  refine ⟨?_, ?_⟩
  · intro st hst
    obtain ⟨h1, h2⟩ := history_spec (getJk_gives s) (potential_sub s _) (potential_zero s _)
      direct eri0 h st hst
    rw [h1, h2]
  · intro hc
    have : ∃ st, history (getJk s) direct eri0 h = some st ∧ (h ≠ [] ∨ eri0 = true → st.eri = true) := by
      induction h using List.reverseRecOn with
      | nil => exact ⟨_, rfl, by intro h; simpa using h⟩
      | append_singleton h c ih =>
        have hstep : history (getJk s) direct eri0 (h ++ [c]) =
            (history (getJk s) direct eri0 h).bind fun st => veff (getJk s) direct st c.1 c.2 := by
          unfold history; rw [List.foldl_append]; rfl
        obtain ⟨st, hst, he⟩ := ih (by
          rcases hc with hc | hc
          · exact Or.inl hc
          · right
            intro d hd
            apply hc d
            cases h with
            | nil => simp at hd
            | cons a l => simpa using hd)
        rw [hstep, hst]
        have hmem : (st.eri || c.1) = true := by
          rcases hc with hc | hc
          · rw [he (Or.inr hc)]; rfl
          · cases h with
            | nil => rw [hc c (by simp)]; simp
            | cons a l => rw [he (Or.inl (by simp))]; rfl
        simp only [Option.bind_some, veff, getJk, hmem, if_true]
        split_ifs <;> exact ⟨_, rfl, fun _ => rfl⟩
    obtain ⟨st, h1, _⟩ := this
    exact ⟨st, h1⟩

example : ∃ h : List (Bool × Matrix (Fin 1) (Fin 1) ℝ), h.length = 2 ∧
    (false = true ∨ ∀ c, h.head? = some c → c.1 = true) :=
  ⟨[(true, 1), (false, 0)], rfl, Or.inr (by simp)⟩

/-- C43 fails: if the integrals neither are present nor fit in memory, the first evaluation of the
potential never returns, whatever the density. -/
theorem incremental_fails (s : Ints X n) (direct : Bool) (D : Matrix n n ℝ) :
    history (getJk s) direct false [(false, D)] = none := by
  simp [history, veff, getJk]

end OpenMS.Scf

namespace OpenMS.ScQed

open Matrix

theorem mul11 (A B : Matrix (Fin 1) (Fin 1) ℝ) : (A * B) 0 0 = A 0 0 * B 0 0 := by
  simp [Matrix.mul_apply]

theorem ext11 {A B : Matrix (Fin 1) (Fin 1) ℝ} (h : A 0 0 = B 0 0) : A = B := by
  ext i j
  rw [Subsingleton.elim i 0, Subsingleton.elim j 0]
  exact h

/-! ### C42 -/

/-- With factor and selection matrix in their places, the orbitals are orthonormal in the overlap
metric, also when linearly dependent functions are removed. -/
theorem rao_orthonormal {N K : ℕ} (F S : Matrix (Fin N) (Fin N) ℝ) (L : Matrix (Fin K) (Fin K) ℝ)
    (P C : Matrix (Fin N) (Fin K) ℝ) (h : IsCholOrth S L P) (hC : IsRaoOrbitals F P L C) :
    Cᵀ * S * C = 1 := by
  obtain ⟨c, e, hc, rfl⟩ := hC
  rw [Matrix.transpose_mul]
  calc cᵀ * Pᵀ * S * (P * c) = cᵀ * (Pᵀ * S * P) * c := by simp only [Matrix.mul_assoc]
    _ = 1 := by rw [h.factor, hc.norm]

example : IsCholOrth (N := 1) (K := 1) !![4] !![2] !![1] ∧ IsRaoOrbitals (N := 1) (K := 1) !![3] !![1] !![2] !![1 / 2] := by
  refine ⟨⟨?_, ?_, ⟨id, fun _ _ h => h, ?_⟩⟩, !![1 / 2], fun _ => 3 / 4, ⟨?_, ?_⟩, ?_⟩
  · apply ext11; simp only [mul11, Matrix.transpose_apply]; norm_num
  · intro i j h; omega
  · intro a i; fin_cases a; fin_cases i; rfl
  · apply ext11; simp only [mul11, Matrix.transpose_apply, Matrix.diagonal]; norm_num
  · apply ext11; simp only [mul11, Matrix.transpose_apply]; norm_num
  · apply ext11; simp only [mul11, Matrix.transpose_apply]; norm_num

/-- C42 (part).  The initial orbitals the code computes are orthonormal if the overlap is the unit
matrix.  Missing: any other overlap (there it is false, see below). -/
theorem initial_orthonormal_partial {N : ℕ} (F C : Matrix (Fin N) (Fin N) ℝ)
    (h : IsInitialOrbitals F 1 C) : Cᵀ * 1 * C = 1 := by
  obtain ⟨L, P, hL, c, e, hc, rfl⟩ := h
  have h1 : Pᵀ * P = L * Lᵀ := by have := hL.factor; rwa [Matrix.mul_one] at this
  have hP : Pᵀ * P = 1 := by
    obtain ⟨piv, hinj, hsel⟩ := hL.select
    ext i j
    rw [Matrix.mul_apply, Matrix.one_apply]
    simp only [Matrix.transpose_apply, hsel]
    by_cases hij : i = j
    · subst hij; simp
    · rw [if_neg hij]
      apply Finset.sum_eq_zero
      intro x _
      by_cases hx : x = piv i
      · rw [if_neg (show x ≠ piv j by rintro rfl; exact hij (hinj hx.symm)), mul_zero]
      · rw [if_neg hx, zero_mul]
  have hPP : P * Pᵀ = 1 := mul_eq_one_comm.1 hP
  have hLL : Lᵀ * L = 1 := mul_eq_one_comm.1 (h1.symm.trans hP)
  have hn := hc.norm
  rw [hPP, Matrix.mul_one] at hn
  rw [Matrix.transpose_mul, Matrix.mul_one]
  calc cᵀ * Lᵀ * (L * c) = cᵀ * (Lᵀ * L) * c := by simp only [Matrix.mul_assoc]
    _ = 1 := by rw [hLL, Matrix.mul_one, hn]

example : IsInitialOrbitals (N := 1) !![3] 1 !![1] := by
  refine ⟨!![1], !![1], ⟨?_, ?_, ⟨id, fun _ _ h => h, ?_⟩⟩, !![1], fun _ => 3, ⟨?_, ?_⟩, ?_⟩
  · apply ext11; simp only [mul11, Matrix.transpose_apply]; norm_num
  · intro i j h; omega
  · intro a i; fin_cases a; fin_cases i; rfl
  · apply ext11; simp only [mul11, Matrix.transpose_apply, Matrix.diagonal]; norm_num
  · apply ext11; simp only [mul11, Matrix.transpose_apply]; norm_num
  · apply ext11; simp only [mul11, Matrix.transpose_apply]; norm_num

/-- C42 fails: one basis function with overlap 4; every orbital the code can compute has norm 16
instead of 1, for every Fock matrix; and there is one. -/
theorem initial_orthonormal_fails (F : Matrix (Fin 1) (Fin 1) ℝ) :
    (∃ C, IsInitialOrbitals F !![4] C) ∧
    ∀ C, IsInitialOrbitals F !![4] C → Cᵀ * !![4] * C = !![16] := by
  constructor
  · refine ⟨!![2], !![2], !![1], ⟨?_, ?_, ⟨id, fun _ _ h => h, ?_⟩⟩, !![1], fun _ => 4 * F 0 0, ⟨?_, ?_⟩, ?_⟩
    · apply ext11; simp only [mul11, Matrix.transpose_apply]; norm_num
    · intro i j h; omega
    · intro a i; fin_cases a; fin_cases i; rfl
    · apply ext11; simp only [mul11, Matrix.transpose_apply, Matrix.diagonal]; simp; ring
    · apply ext11; simp only [mul11, Matrix.transpose_apply]; norm_num
    · apply ext11; simp only [mul11, Matrix.transpose_apply]; norm_num
  · rintro C ⟨L, P, hL, c, e, hc, rfl⟩
    have hP : P 0 0 = 1 := by
      obtain ⟨piv, _, hsel⟩ := hL.select
      rw [hsel, if_pos (Subsingleton.elim _ _)]
    have h1 := congrFun (congrFun hL.factor 0) 0
    have h2 := congrFun (congrFun hc.norm 0) 0
    simp [mul11, hP] at h1 h2
    apply ext11
    simp only [mul11, Matrix.transpose_apply]
    show L 0 0 * c 0 0 * 4 * (L 0 0 * c 0 0) = 16
    have : L 0 0 * c 0 0 * 4 * (L 0 0 * c 0 0) = 4 * (L 0 0 * L 0 0) * (c 0 0 * c 0 0) := by ring
    rw [this, ← h1, h2]; norm_num

/-! ### C45 -/

/-- C45 (part).  Whenever the fraction is optimised or the squeezing is not, setting the parameters
from the vector restores every optimised parameter and leaves the others as they are, whatever the
current values; likewise behind a Fock matrix.  Missing: squeezing optimised at fixed fraction. -/
theorem params_roundtrip_partial (varf vsq : Bool) (hv : varf = true ∨ vsq = false) (p p' : Params)
    (he : p'.eta.length = p.eta.length) (hf : p'.f.length = p.f.length)
    (hq : p'.sq.length = p.sq.length) (he0 : 0 < p.eta.length) (hf0 : 0 < p.f.length)
    (hq0 : 0 < p.sq.length) (fock : List ℝ) :
    setVarParams varf vsq p' (preUpdate varf vsq p) =
      some ⟨p.eta, if varf then p.f else p'.f, if vsq then p.sq else p'.sq⟩ ∧
    setParams varf vsq p' fock.length (fock ++ preUpdate varf vsq p) =
      some (fock, ⟨p.eta, if varf then p.f else p'.f, if vsq then p.sq else p'.sq⟩) := by
  rcases p with ⟨e, f, q⟩
  rcases p' with ⟨e', f', q'⟩
  simp only at he hf hq he0 hf0 hq0
  have he0' : e ≠ [] := by rintro rfl; simp at he0
  have hf0' : f ≠ [] := by rintro rfl; simp at hf0
  have hq0' : q ≠ [] := by rintro rfl; simp at hq0
  cases varf <;> cases vsq
  · constructor
    · simp [setVarParams, preUpdate, he, he0]
    · simp [setParams, preUpdate, he, he0]
  · simp at hv
  · constructor
    · simp [setVarParams, preUpdate, he, hf, hf0, he0]
    · simp [setParams, preUpdate, he, hf, hf0, he0]
  · constructor
    · simp [setVarParams, preUpdate, he, hf, hq, hf0, he0, hq0, List.drop_append]
    · have d1 : ((fock ++ (e ++ (f ++ q))).drop (fock.length + e.length)) = f ++ q := by
        rw [← List.append_assoc, ← List.length_append, List.drop_left]
      have d2 : ((fock ++ (e ++ (f ++ q))).drop (fock.length + e.length + f.length)) = q := by
        rw [← List.drop_drop, d1, List.drop_left]
      have l1 : fock.length + e.length + f.length < fock.length + (e.length + (f.length + q.length)) := by
        omega
      simp [setParams, preUpdate, he, hf, hq, hf0, he0, d1, d2, l1]

example : setVarParams true true ⟨[0, 0], [1], [0]⟩ (preUpdate true true ⟨[1, 2], [3], [4]⟩) =
    some ⟨[1, 2], [3], [4]⟩ := by
  simp [setVarParams, preUpdate]

/-- C45 fails: with the squeezing optimised and the fraction fixed, the squeezing in the vector is
never set, for any values and any numbers of parameters. -/
theorem params_roundtrip_fails (p p' : Params)
    (he : p'.eta.length = p.eta.length) (hf : p'.f.length = p.f.length)
    (hq : p'.sq.length = p.sq.length) (hm : p.sq.length = p.f.length) (he0 : 0 < p.eta.length)
    (fock : List ℝ) :
    setVarParams false true p' (preUpdate false true p) = some ⟨p.eta, p'.f, p'.sq⟩ ∧
    setParams false true p' fock.length (fock ++ preUpdate false true p) =
      some (fock, ⟨p.eta, p'.f, p'.sq⟩) := by
  rcases p with ⟨e, f, q⟩
  rcases p' with ⟨e', f', q'⟩
  simp only at he hf hq he0 hm
  constructor
  · simp [setVarParams, preUpdate, he, hf, he0, hm]
  · have l1 : ¬ fock.length + e.length + f.length < fock.length + (e.length + f.length) := by omega
    simp [setParams, preUpdate, he, hf, he0, hm, l1]

example : setVarParams false true ⟨[0], [1], [0]⟩ (preUpdate false true ⟨[1], [1], [7]⟩) =
    some ⟨[1], [1], [0]⟩ := by
  simp [setVarParams, preUpdate]

end OpenMS.ScQed
