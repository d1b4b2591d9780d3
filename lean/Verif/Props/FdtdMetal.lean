import Verif.Model.FdtdMetal

/-!
# C166: metals and molecules in the grid
-/

namespace OpenMS.FdtdMetal

open OpenMS.FdtdObjects OpenMS.Fdtd

set_option linter.unusedSectionVars false

section

variable {K : Type*} [Field K] [LinearOrder K] [IsStrictOrderedRing K] [FloorRing K]

/-- One pass of the loop over the objects. -/
theorem fold_none (e : Env K) (i j k : ℤ) (l : List (MObj K)) (s : K × K × K)
    (h : ∀ o ∈ l, inMobject e o i j k = some false) :
    l.foldl (fun s o => s.bind fun s => (inMobject e o i j k).map fun b =>
      if b then (o.obj.epsilon, o.omega_p, o.gamma_0) else s) (some s) = some s := by
  induction l with
  | nil => rfl
  | cons o l ih =>
    rw [List.foldl_cons, h o (by simp)]
    exact ih fun p hp => h p (by simp [hp])

theorem fold_defined (e : Env K) (i j k : ℤ) (l : List (MObj K)) (s : K × K × K)
    (h : ∀ o ∈ l, inMobject e o i j k ≠ none) :
    ∃ t, l.foldl (fun s o => s.bind fun s => (inMobject e o i j k).map fun b =>
      if b then (o.obj.epsilon, o.omega_p, o.gamma_0) else s) (some s) = some t := by
  induction l generalizing s with
  | nil => exact ⟨s, rfl⟩
  | cons o l ih =>
    obtain ⟨b, hb⟩ := Option.ne_none_iff_exists'.1 (h o (by simp))
    rw [List.foldl_cons, hb]
    exact ih _ fun p hp => h p (by simp [hp])

/-- **C166**: a node has the values of the last object that contains it, and zeros if there is none. -/
theorem metal_spec (e : Env K) (i j k : ℤ) (l₂ : List (MObj K)) (h₂ : ∀ o ∈ l₂, inMobject e o i j k = some false) :
    makeMetal e l₂ i j k = some (0, 0, 0) ∧
      ∀ (l₁ : List (MObj K)) (o : MObj K), (∀ p ∈ l₁, inMobject e p i j k ≠ none) → inMobject e o i j k = some true →
        makeMetal e (l₁ ++ o :: l₂) i j k = some (o.obj.epsilon, o.omega_p, o.gamma_0) := by
  refine ⟨fold_none e i j k l₂ _ h₂, fun l₁ o h₁ ho => ?_⟩
  unfold makeMetal
  rw [List.foldl_append, List.foldl_cons]
  obtain ⟨t, ht⟩ := fold_defined e i j k l₁ (0, 0, 0) h₁
  rw [ht]
  have : ((some t).bind fun s => (inMobject e o i j k).map fun b =>
      if b then (o.obj.epsilon, o.omega_p, o.gamma_0) else s) = some (o.obj.epsilon, o.omega_p, o.gamma_0) := by
    rw [ho]; rfl
  rw [this]
  exact fold_none e i j k l₂ _ h₂

/-- The arrays used by the updates come from `make_metal_structure`. -/
def FromObjects (e : Env K) (objs : List (MObj K)) (P : Par K) : Prop :=
  ∀ c : Ix, makeMetal e objs c.1 c.2.1 c.2.2 = some (P.mepsilon c, P.momega c, P.mgamma c)

/-- The values at a node in the last object. -/
theorem last_values {e : Env K} {l₁ l₂ : List (MObj K)} {o : MObj K} {P : Par K}
    (hP : FromObjects e (l₁ ++ o :: l₂) P) {c : Ix} (h₁ : ∀ p ∈ l₁, inMobject e p c.1 c.2.1 c.2.2 ≠ none)
    (ho : inMobject e o c.1 c.2.1 c.2.2 = some true) (h₂ : ∀ p ∈ l₂, inMobject e p c.1 c.2.1 c.2.2 = some false) :
    P.mepsilon c = o.obj.epsilon ∧ P.momega c = o.omega_p ∧ P.mgamma c = o.gamma_0 := by
  have h := hP c
  rw [(metal_spec e _ _ _ l₂ h₂).2 l₁ o h₁ ho] at h
  simp only [Option.some.injEq, Prod.mk.injEq] at h
  exact ⟨h.1.symm, h.2.1.symm, h.2.2.symm⟩

/-- **C166**: an object with `epsilon_b = 0` erases the metal before it: its nodes outside of the layers are updated as
dielectric. -/
theorem eraser (e : Env K) (l₁ l₂ : List (MObj K)) (o : MObj K) (P : Par K) (hP : FromObjects e (l₁ ++ o :: l₂) P) (c : Ix)
    (h₁ : ∀ p ∈ l₁, inMobject e p c.1 c.2.1 c.2.2 ≠ none) (ho : inMobject e o c.1 c.2.1 c.2.2 = some true)
    (h₂ : ∀ p ∈ l₂, inMobject e p c.1 c.2.1 c.2.2 = some false) (h0 : o.obj.epsilon = 0) (hp : P.position c = true)
    (h : Ix → HF K) (v : EF K) : stepE P h c v = normalE P h c v := by
  obtain ⟨q, -, -⟩ := last_values hP h₁ ho h₂
  unfold stepE
  simp [hp, q, h0]

/-- **C166**: a metal whose `epsilon_b` is neither `0`, `100` nor `1000` is updated with its own values. -/
theorem metal_partial (e : Env K) (l₁ l₂ : List (MObj K)) (o : MObj K) (P : Par K) (hP : FromObjects e (l₁ ++ o :: l₂) P) (c : Ix)
    (h₁ : ∀ p ∈ l₁, inMobject e p c.1 c.2.1 c.2.2 ≠ none) (ho : inMobject e o c.1 c.2.1 c.2.2 = some true)
    (h₂ : ∀ p ∈ l₂, inMobject e p c.1 c.2.1 c.2.2 = some false) (h0 : o.obj.epsilon ≠ 0) (h100 : o.obj.epsilon ≠ 100)
    (h1000 : o.obj.epsilon ≠ 1000) (h : Ix → HF K) (v : EF K) :
    stepE P h c v = metalE P h c v ∧ P.mepsilon c = o.obj.epsilon ∧ P.momega c = o.omega_p ∧ P.mgamma c = o.gamma_0 := by
  have q := last_values hP h₁ ho h₂
  refine ⟨?_, q⟩
  unfold stepE
  cases hp : P.position c <;> simp [q.1, h0, h100, h1000]

/-- **C166**: a metal with `epsilon_b = 100` is no metal: outside of the layers its current stays as it is, whatever the fields and
its plasma frequency are. -/
theorem hundred_fails (e : Env K) (l₁ l₂ : List (MObj K)) (o : MObj K) (P : Par K) (hP : FromObjects e (l₁ ++ o :: l₂) P) (c : Ix)
    (h₁ : ∀ p ∈ l₁, inMobject e p c.1 c.2.1 c.2.2 ≠ none) (ho : inMobject e o c.1 c.2.1 c.2.2 = some true)
    (h₂ : ∀ p ∈ l₂, inMobject e p c.1 c.2.1 c.2.2 = some false) (h100 : o.obj.epsilon = 100) (hp : P.position c = true)
    (h : Ix → HF K) (v : EF K) :
    (stepE P h c v).Jx = v.Jx ∧ (stepE P h c v).Jy = v.Jy ∧ (stepE P h c v).Jz = v.Jz := by
  obtain ⟨q, -, -⟩ := last_values hP h₁ ho h₂
  have : stepE P h c v = molecularE P h c v := by
    unfold stepE
    simp [hp, q, h100]
  rw [this]
  exact ⟨rfl, rfl, rfl⟩

/-- **C166**: a molecule in the layers becomes a piece of dielectric with constant 100, without the polarization of the molecule
and without the absorption of the layers. -/
theorem layer_fails (e : Env K) (l₁ l₂ : List (MObj K)) (x y z : K) (P : Par K)
    (hP : FromObjects e (l₁ ++ inputMolecular e true x y z :: l₂) P) (c : Ix)
    (h₁ : ∀ p ∈ l₁, inMobject e p c.1 c.2.1 c.2.2 ≠ none)
    (ho : inMobject e (inputMolecular e true x y z) c.1 c.2.1 c.2.2 = some true)
    (h₂ : ∀ p ∈ l₂, inMobject e p c.1 c.2.1 c.2.2 = some false) (hp : P.position c = false) (heo : P.eo ≠ 0)
    (h : Ix → HF K) (v : EF K) (hJ : v.Jx = 0 ∧ v.Jy = 0 ∧ v.Jz = 0) :
    stepE P h c v = { v with
      x := v.x + P.dt / (100 * P.eo) * curlHx P h c
      y := v.y + P.dt / (100 * P.eo) * curlHy P h c
      z := v.z + P.dt / (100 * P.eo) * curlHz P h c } := by
  obtain ⟨q1, q2, q3⟩ := last_values hP h₁ ho h₂
  have e1 : P.mepsilon c = 100 := q1
  have e2 : P.momega c = 0 := q2
  have e3 : P.mgamma c = 0 := q3
  have : stepE P h c v = metalE P h c v := by
    unfold stepE
    simp [hp, e1]
  rw [this]
  unfold metalE
  simp only [e1, e2, e3, hJ.1, hJ.2.1, hJ.2.2]
  have a1 : (2 * P.eo * 100 - P.dt * (0 * 0 * P.eo * P.dt / (2 + 0 * P.dt))) /
      (2 * P.eo * 100 + P.dt * (0 * 0 * P.eo * P.dt / (2 + 0 * P.dt))) = (1 : K) := by
    simp only [zero_mul, zero_div, mul_zero, sub_zero, add_zero]
    exact div_self (by positivity)
  have a2 : 2 * P.dt / (2 * P.eo * 100 + P.dt * (0 * 0 * P.eo * P.dt / (2 + 0 * P.dt))) = P.dt / (100 * P.eo) := by
    simp only [zero_mul, zero_div, mul_zero, add_zero]
    field_simp
  rw [a1, a2]
  ext <;> simp

/-- **C166**: the reduced frequency has the same phase in one step as the frequency, for the time steps `1/(c S)` and
`1/(c S ds_x lattice_x / lattice_n)`; and the permittivity at a reduced frequency is the one at the frequency. -/
theorem units (e : Env K) (ds_x lattice_n c S w eps wp gamma : K) (hd : ds_x ≠ 0) (hx : (e.lattice_x : K) ≠ 0) (hn : lattice_n ≠ 0)
    (hc : c ≠ 0) (hS : S ≠ 0) (hw : w ≠ 0) :
    reduced e ds_x lattice_n w * (1 / (c * S)) = w * (1 / (c * (S * (ds_x * e.lattice_x / lattice_n)))) ∧
      ∀ (shape : Shape) (x y z s1 s2 s3 : K) (o : MObj K), o = inputDrude e ds_x shape x y z s1 s2 s3 eps wp gamma lattice_n →
        o.obj.epsilon - o.omega_p ^ 2 / (reduced e ds_x lattice_n w ^ 2 + o.gamma_0 ^ 2) = eps - wp ^ 2 / (w ^ 2 + gamma ^ 2) ∧
        o.omega_p ^ 2 * o.gamma_0 / (reduced e ds_x lattice_n w * (reduced e ds_x lattice_n w ^ 2 + o.gamma_0 ^ 2))
          = wp ^ 2 * gamma / (w * (w ^ 2 + gamma ^ 2)) := by
  have hp : w ^ 2 + gamma ^ 2 ≠ 0 := by
    have : 0 < w ^ 2 := by positivity
    have := sq_nonneg gamma
    positivity
  obtain ⟨f, hf⟩ : ∃ f : K, f = lattice_n / (ds_x * e.lattice_x) := ⟨_, rfl⟩
  have hf0 : f ≠ 0 := by rw [hf]; exact div_ne_zero hn (mul_ne_zero hd hx)
  have hr : ∀ w : K, reduced e ds_x lattice_n w = w * f := fun w => by rw [hf]; unfold reduced; ring
  refine ⟨by unfold reduced; field_simp, fun shape x y z s1 s2 s3 o ho => ?_⟩
  have h1 : o.omega_p = wp * f := by rw [ho, ← hr]; rfl
  have h2 : o.gamma_0 = gamma * f := by rw [ho, ← hr]; rfl
  have h3 : o.obj.epsilon = eps := by rw [ho]; cases shape <;> rfl
  rw [h1, h2, h3, hr]
  constructor
  · congr 1
    rw [show (w * f) ^ 2 + (gamma * f) ^ 2 = (w ^ 2 + gamma ^ 2) * f ^ 2 by ring, mul_pow, mul_div_mul_right _ _ (pow_ne_zero 2 hf0)]
  · rw [show w * f * ((w * f) ^ 2 + (gamma * f) ^ 2) = w * (w ^ 2 + gamma ^ 2) * f ^ 3 by ring,
      show (wp * f) ^ 2 * (gamma * f) = wp ^ 2 * gamma * f ^ 3 by ring, mul_div_mul_right _ _ (pow_ne_zero 3 hf0)]

/-- **C166**: a molecule with its place on a node is at this node and at no other. -/
theorem molecule_partial (e : Env K) (x y z : K) (a b c : ℤ) (hx : (x + e.xcenter) * e.lattice_x = a)
    (hy : (y + e.ycenter) * e.lattice_y = b) (hz : (z + e.zcenter) * e.lattice_z = c) (i j k : ℤ) :
    inMobject e (inputMolecular e true x y z) i j k = some (decide (i = a ∧ j = b ∧ k = c)) := by
  unfold inMobject inputMolecular plain
  simp only [if_true, hx, hy, hz, Option.some.injEq, decide_eq_decide]
  constructor
  · intro h
    by_contra hne
    have h1 : 1 ≤ (i - a) * (i - a) + (j - b) * (j - b) + (k - c) * (k - c) := by
      have s1 := mul_self_nonneg (i - a)
      have s2 := mul_self_nonneg (j - b)
      have s3 := mul_self_nonneg (k - c)
      by_contra h'
      have z1 : (i - a) * (i - a) = 0 := by omega
      have z2 : (j - b) * (j - b) = 0 := by omega
      have z3 : (k - c) * (k - c) = 0 := by omega
      exact hne ⟨by have := mul_self_eq_zero.1 z1; omega, by have := mul_self_eq_zero.1 z2; omega,
        by have := mul_self_eq_zero.1 z3; omega⟩
    have h2 : (1 : K) ≤ ((i : K) - a) * (i - a) + ((j : K) - b) * (j - b) + ((k : K) - c) * (k - c) := by exact_mod_cast h1
    linarith [show (1 : K) / 1000000 < 1 by norm_num]
  · rintro ⟨rfl, rfl, rfl⟩
    norm_num

/-- **C166**: a molecule is at most at one node. -/
theorem molecule_once (e : Env K) (x y z : K) (i j k i' j' k' : ℤ)
    (h : inMobject e (inputMolecular e true x y z) i j k = some true)
    (h' : inMobject e (inputMolecular e true x y z) i' j' k' = some true) : i = i' ∧ j = j' ∧ k = k' := by
  unfold inMobject inputMolecular plain at h h'
  simp only [if_true, Option.some.injEq, decide_eq_true_eq] at h h'
  generalize (x + e.xcenter) * (e.lattice_x : K) = a at h h'
  generalize (y + e.ycenter) * (e.lattice_y : K) = b at h h'
  generalize (z + e.zcenter) * (e.lattice_z : K) = c at h h'
  have key : ∀ (m n : ℤ) (a : K), ((m : K) - a) * (m - a) < 1 / 1000000 → ((n : K) - a) * (n - a) < 1 / 1000000 → m = n := by
    intro m n a hm hn
    have h1 : ((m : K) - n) * (m - n) < 1 := by nlinarith [mul_self_nonneg ((m : K) - a + (n - a))]
    have h2 : (m - n) * (m - n) < 1 := by exact_mod_cast h1
    have h3 : (m - n) * (m - n) = 0 := by have := mul_self_nonneg (m - n); omega
    have := mul_self_eq_zero.1 h3
    omega
  have n1 := mul_self_nonneg ((i : K) - a)
  have n2 := mul_self_nonneg ((j : K) - b)
  have n3 := mul_self_nonneg ((k : K) - c)
  have n1' := mul_self_nonneg ((i' : K) - a)
  have n2' := mul_self_nonneg ((j' : K) - b)
  have n3' := mul_self_nonneg ((k' : K) - c)
  exact ⟨key _ _ a (by linarith) (by linarith), key _ _ b (by linarith) (by linarith), key _ _ c (by linarith) (by linarith)⟩

/-- **C166**: a molecule that is at least a thousandth of a cell away from all planes of nodes along `x` is lost: the structure is
the one without it. -/
theorem molecule_fails (e : Env K) (l₁ l₂ : List (MObj K)) (x y z : K)
    (hx : ∀ n : ℤ, 1 / 1000 ≤ |(n : K) - (x + e.xcenter) * e.lattice_x|) (i j k : ℤ) :
    makeMetal e (l₁ ++ inputMolecular e true x y z :: l₂) i j k = makeMetal e (l₁ ++ l₂) i j k := by
  have ho : inMobject e (inputMolecular e true x y z) i j k = some false := by
    unfold inMobject inputMolecular plain
    simp only [if_true, Option.some.injEq, decide_eq_false_iff_not, not_lt]
    have h1 := hx i
    generalize (x + e.xcenter) * (e.lattice_x : K) = a at *
    generalize (y + e.ycenter) * (e.lattice_y : K) = b at *
    generalize (z + e.zcenter) * (e.lattice_z : K) = c at *
    have h2 : (1 / 1000 : K) * (1 / 1000) ≤ |(i : K) - a| * |(i : K) - a| := by
      apply mul_self_le_mul_self (by norm_num) h1
    rw [abs_mul_abs_self] at h2
    have n2 := mul_self_nonneg ((j : K) - b)
    have n3 := mul_self_nonneg ((k : K) - c)
    have : (1 / 1000 : K) * (1 / 1000) = 1 / 1000000 := by norm_num
    linarith
  unfold makeMetal
  rw [List.foldl_append, List.foldl_append, List.foldl_cons, ho]
  congr 1
  cases l₁.foldl (fun s o => s.bind fun s => (inMobject e o i j k).map fun b =>
    if b then (o.obj.epsilon, o.omega_p, o.gamma_0) else s) (some (0, 0, 0)) <;> rfl

/-- The axis of a rod along `x` or `y`. -/
theorem rod_axis (e : Env K) (ds_x x y z r L s eps w g n u : K) :
    inMobject e (inputDrude e ds_x .rodX x y z r L s eps w g n) ((x + e.xcenter) * e.lattice_x + u)
        ((y + e.ycenter) * e.lattice_y) ((z + e.zcenter) * e.lattice_z) = some (decide (|u| ≤ L * e.lattice_z / 2)) ∧
      inMobject e (inputDrude e ds_x .rodY x y z r L s eps w g n) ((x + e.xcenter) * e.lattice_x)
        ((y + e.ycenter) * e.lattice_y + u) ((z + e.zcenter) * e.lattice_z) = some (decide (|u| ≤ L * e.lattice_z / 2)) := by
  constructor <;>
  · unfold inMobject inputDrude inputShape plain
    simp only [Bool.false_eq_true, if_false]
    unfold inObject
    simp only [sub_self, mul_zero, add_zero, Option.some.injEq, decide_eq_decide]
    generalize L * (e.lattice_z : K) / 2 = q
    rw [abs_le]
    constructor
    · rintro ⟨-, h1, h2⟩
      exact ⟨by linarith, by linarith⟩
    · rintro ⟨h1, h2⟩
      exact ⟨mul_self_nonneg _, by linarith, by linarith⟩

/-- **C166**: with the same resolution along all axes a rod along `x` or `y` has on its axis the length that was asked for. -/
theorem rod_partial (e : Env K) (ds_x x y z r L s eps w g n u : K) (h1 : e.lattice_y = e.lattice_x) (h2 : e.lattice_z = e.lattice_x) :
    inMobject e (inputDrude e ds_x .rodX x y z r L s eps w g n) ((x + e.xcenter) * e.lattice_x + u)
        ((y + e.ycenter) * e.lattice_y) ((z + e.zcenter) * e.lattice_z) = some (decide (|u| ≤ L / 2 * e.lattice_x)) ∧
      inMobject e (inputDrude e ds_x .rodY x y z r L s eps w g n) ((x + e.xcenter) * e.lattice_x)
        ((y + e.ycenter) * e.lattice_y + u) ((z + e.zcenter) * e.lattice_z) = some (decide (|u| ≤ L / 2 * e.lattice_y)) := by
  obtain ⟨a, b⟩ := rod_axis e ds_x x y z r L s eps w g n u
  have hz : L * (e.lattice_z : K) / 2 = L / 2 * e.lattice_x := by rw [h2]; ring
  rw [a, b, hz, h1]
  exact ⟨rfl, rfl⟩

/-- **C166**: with a higher resolution along `z` a rod along `x` reaches further than was asked for, with a lower one not so far. -/
theorem rod_fails (e : Env K) (ds_x x y z r L s eps w g n : K) (hL : 0 < L) (hx : 0 < e.lattice_x) :
    ((e.lattice_x < e.lattice_z) → ∃ u, L / 2 * e.lattice_x < |u| ∧
      inMobject e (inputDrude e ds_x .rodX x y z r L s eps w g n) ((x + e.xcenter) * e.lattice_x + u)
        ((y + e.ycenter) * e.lattice_y) ((z + e.zcenter) * e.lattice_z) = some true) ∧
    ((0 < e.lattice_z ∧ e.lattice_z < e.lattice_x) → ∃ u, |u| ≤ L / 2 * e.lattice_x ∧
      inMobject e (inputDrude e ds_x .rodX x y z r L s eps w g n) ((x + e.xcenter) * e.lattice_x + u)
        ((y + e.ycenter) * e.lattice_y) ((z + e.zcenter) * e.lattice_z) = some false) := by
  constructor
  · intro h
    have hK : (e.lattice_x : K) < e.lattice_z := by exact_mod_cast h
    have hx' : (0 : K) < e.lattice_x := by exact_mod_cast hx
    have hz : 0 ≤ (e.lattice_z : K) := by linarith
    refine ⟨L * e.lattice_z / 2, ?_, ?_⟩
    · rw [abs_of_nonneg (by positivity)]
      nlinarith
    · rw [(rod_axis e ds_x x y z r L s eps w g n _).1, abs_of_nonneg (by positivity)]
      simp
  · rintro ⟨h0, h⟩
    have h0' : (0 : K) < e.lattice_z := by exact_mod_cast h0
    have hK : (e.lattice_z : K) < e.lattice_x := by exact_mod_cast h
    refine ⟨L / 2 * e.lattice_x, ?_, ?_⟩
    · rw [abs_of_nonneg (by nlinarith)]
    · rw [(rod_axis e ds_x x y z r L s eps w g n _).1, abs_of_nonneg (by nlinarith)]
      simp only [Option.some.injEq, decide_eq_false_iff_not, not_le]
      nlinarith

/-- Objects with the same tests at two nodes give the same values. -/
theorem same_values (e : Env K) (objs : List (MObj K)) (i i' j k : ℤ)
    (h : ∀ o ∈ objs, inMobject e o i j k = inMobject e o i' j k) : makeMetal e objs i j k = makeMetal e objs i' j k := by
  unfold makeMetal
  generalize (some ((0 : K), (0 : K), (0 : K))) = s
  induction objs generalizing s with
  | nil => rfl
  | cons o l ih =>
    rw [List.foldl_cons, List.foldl_cons, h o (by simp)]
    exact ih (fun p hp => h p (by simp [hp])) _

/-- **C166**: metals are half a cell off for `Ex`.  The value of a node is used for `Ex`, which is half a cell further.  Objects
that are their own mirror images in the plane of the nodes `c`, and do not reach beyond some plane: if there is metal on a line along
`x`, a place of `Ex` in the metal has a mirror image that is not in the metal. -/
theorem stagger_fails (e : Env K) (objs : List (MObj K)) (P : Par K) (hP : FromObjects e objs P) (c N j k : ℤ)
    (hs : ∀ o ∈ objs, ∀ i : ℤ, inMobject e o i j k = inMobject e o ((2 * c - i : ℤ) : K) j k)
    (hN : ∀ o ∈ objs, ∀ i : ℤ, N < i → inMobject e o i j k = some false) (h : ∃ i, P.mepsilon (i, j, k) ≠ 0) :
    ∃ i i' : ℤ, (i' : ℚ) + 1 / 2 = 2 * c - ((i : ℚ) + 1 / 2) ∧ P.mepsilon (i, j, k) ≠ 0 ∧ P.mepsilon (i', j, k) = 0 := by
  have hz : ∀ i, N < i → P.mepsilon (i, j, k) = 0 := by
    intro i hi
    have h1 := hP (i, j, k)
    rw [(metal_spec e i j k objs fun o ho => hN o ho i hi).1] at h1
    simp only [Option.some.injEq, Prod.mk.injEq] at h1
    exact h1.1.symm
  have hm : ∀ i, P.mepsilon (i, j, k) = P.mepsilon (2 * c - i, j, k) := by
    intro i
    have h1 := hP (i, j, k)
    have h2 := hP (2 * c - i, j, k)
    dsimp only at h1 h2
    rw [same_values e objs i (2 * c - i) j k fun o ho => hs o ho i, h2] at h1
    simp only [Option.some.injEq, Prod.mk.injEq] at h1
    exact h1.1.symm
  obtain ⟨i, hi, hmax⟩ := Int.exists_greatest_of_bdd (P := fun i => P.mepsilon (i, j, k) ≠ 0)
    ⟨N, fun i hi => by by_contra hn; exact hi (hz i (by omega))⟩ h
  refine ⟨i, 2 * c - 1 - i, by push_cast; ring, hi, ?_⟩
  rw [hm]
  by_contra hne
  have := hmax _ hne
  omega

example : ∃ (objs : List (MObj ℚ)) (e : Env ℚ), makeMetal e objs 3 0 0 = some (2, 5, 7) ∧ makeMetal e objs 4 0 0 = some (0, 0, 0) := by
  refine ⟨[⟨plain .sphere 0 0 0 3 0 0 2, false, 5, 7⟩], ⟨fun _ => 0, fun _ => 0, 0, 0, 0, 1, 1, 1⟩, ?_, ?_⟩ <;>
    norm_num [makeMetal, inMobject, inObject, plain]

end

/-! ### Matrices -/

/-- The counts of a text: tabulators and ends of lines, and ends of lines. -/
theorem count_eq (t : List Char) (a : ℕ × ℕ) :
    t.foldl (fun (s : ℕ × ℕ) ch =>
      let s := if ch = '\t' then (s.1 + 1, s.2) else s
      if ch = '\n' then (s.1 + 1, s.2 + 1) else s) a = (a.1 + t.count '\t' + t.count '\n', a.2 + t.count '\n') := by
  induction t generalizing a with
  | nil => rfl
  | cons ch t ih =>
    rw [List.foldl_cons, ih]
    by_cases h1 : ch = '\t'
    · subst h1
      simp
      omega
    · by_cases h2 : ch = '\n'
      · subst h2
        simp
        omega
      · simp [h1, h2]

/-- The text of a line with the numbers separated by tabulators. -/
def separated : List (List Char) → List Char
  | [] => ['\n']
  | [a] => a ++ ['\n']
  | a :: b :: l => a ++ '\t' :: separated (b :: l)

/-- The text of a line with a tabulator after each number (`output.c`, `farfield.c`, `transmap.c` L174-178). -/
def followed (l : List (List Char)) : List Char := l.flatMap (fun a => a ++ ['\t']) ++ ['\n']

/-- A number without tabulator and end of line. -/
def Word (a : List Char) : Prop := a.count '\t' = 0 ∧ a.count '\n' = 0

theorem separated_count (a : List Char) (l : List (List Char)) (h : ∀ b ∈ a :: l, Word b) :
    (separated (a :: l)).count '\t' = l.length ∧ (separated (a :: l)).count '\n' = 1 := by
  induction l generalizing a with
  | nil =>
    obtain ⟨h1, h2⟩ := h a (by simp)
    simp [separated, h1, h2]
  | cons b l ih =>
    obtain ⟨h1, h2⟩ := h a (by simp)
    obtain ⟨q1, q2⟩ := ih b fun c hc => h c (by simp at hc ⊢; tauto)
    simp [separated, h1, h2, q1, q2]

theorem followed_count (l : List (List Char)) (h : ∀ b ∈ l, Word b) :
    (followed l).count '\t' = l.length ∧ (followed l).count '\n' = 1 := by
  unfold followed
  induction l with
  | nil => simp
  | cons a l ih =>
    obtain ⟨h1, h2⟩ := h a (by simp)
    obtain ⟨q1, q2⟩ := ih fun c hc => h c (by simp [hc])
    simp at q1 q2
    simp [h1, h2, q1, q2]

theorem lines_count (text : List (List Char) → List Char) (T : ℕ) (rows : List (List (List Char)))
    (h : ∀ r ∈ rows, (text r).count '\t' = T ∧ (text r).count '\n' = 1) :
    (rows.flatMap text).count '\t' = rows.length * T ∧ (rows.flatMap text).count '\n' = rows.length := by
  induction rows with
  | nil => simp
  | cons r rows ih =>
    obtain ⟨h1, h2⟩ := h r (by simp)
    obtain ⟨q1, q2⟩ := ih fun c hc => h c (by simp [hc])
    rw [List.flatMap_cons, List.count_append, List.count_append, h1, h2, q1, q2, List.length_cons]
    constructor
    · ring
    · omega

/-- **C166**: a file without a line ends the program with a division by zero, and no other file does. -/
theorem count_empty (text : List Char) : countRowCol text = none ↔ '\n' ∉ text := by
  have key : ∀ (l : List Char) (s : ℕ × ℕ), (l.foldl (fun (s : ℕ × ℕ) ch =>
      let s := if ch = '\t' then (s.1 + 1, s.2) else s
      if ch = '\n' then (s.1 + 1, s.2 + 1) else s) s).2 = s.2 + l.count '\n' := by
    intro l
    induction l with
    | nil => intro s; simp
    | cons a l ih =>
      intro s
      rw [List.foldl_cons, ih, List.count_cons]
      by_cases h1 : a = '\n'
      · subst h1; simp; omega
      · by_cases h2 : a = '\t' <;> simp [h1, h2]
  unfold countRowCol
  dsimp only
  rw [key, Nat.zero_add]
  by_cases h : text.count '\n' = 0
  · rw [if_pos h]
    exact ⟨fun _ => List.count_eq_zero.1 h, fun _ => rfl⟩
  · rw [if_neg h]
    exact ⟨fun h' => by simp at h', fun h' => absurd (List.count_eq_zero.2 h') h⟩

/-- **C166**: a file with tabulators between the numbers of a line has the counted rows and columns. -/
theorem count_partial (rows : List (List (List Char))) (C : ℕ) (hC : 0 < C) (hR : rows ≠ [])
    (h : ∀ r ∈ rows, r.length = C ∧ ∀ b ∈ r, Word b) :
    countRowCol (rows.flatMap separated) = some (C, rows.length) := by
  have hl : 0 < rows.length := List.length_pos_iff.2 hR
  obtain ⟨q1, q2⟩ := lines_count separated (C - 1) rows fun r hr => by
    obtain ⟨h1, h2⟩ := h r hr
    cases r with
    | nil => simp at h1; omega
    | cons a l =>
      have := separated_count a l h2
      simp at h1
      exact ⟨by omega, this.2⟩
  unfold countRowCol
  rw [count_eq, q1, q2]
  dsimp only
  rw [if_neg (by omega)]
  obtain ⟨D, rfl⟩ : ∃ D, C = D + 1 := ⟨C - 1, by omega⟩
  simp only [Option.some.injEq, Prod.mk.injEq]
  refine ⟨?_, by omega⟩
  rw [show 0 + rows.length * (D + 1 - 1) + rows.length = rows.length * (D + 1) by simp; ring, zero_add,
    Nat.mul_div_cancel_left _ hl]

/-- **C166**: a file with a tabulator after each number, as the program itself writes them, has one column too many. -/
theorem count_fails (rows : List (List (List Char))) (C : ℕ) (hR : rows ≠ []) (h : ∀ r ∈ rows, r.length = C ∧ ∀ b ∈ r, Word b) :
    countRowCol (rows.flatMap followed) = some (C + 1, rows.length) := by
  have hl : 0 < rows.length := List.length_pos_iff.2 hR
  obtain ⟨q1, q2⟩ := lines_count followed C rows fun r hr => by
    obtain ⟨h1, h2⟩ := h r hr
    rw [← h1]
    exact followed_count r h2
  unfold countRowCol
  rw [count_eq, q1, q2]
  dsimp only
  rw [if_neg (by omega)]
  simp only [Option.some.injEq, Prod.mk.injEq]
  refine ⟨?_, by omega⟩
  rw [show 0 + rows.length * C + rows.length = rows.length * (C + 1) by ring, zero_add, Nat.mul_div_cancel_left _ hl]

/-- **C166**: the number `b` of line `a` of a file with `C` columns is read to column `b` of the matrix, with the first line as
the last row, if the columns are counted right. -/
theorem places_spec (C R a b : ℕ) (ha : a < R) (hb : b < C) : (places C R)[a * C + b]? = some (b, R - 1 - a) := by
  induction R generalizing a with
  | zero => omega
  | succ R ih =>
    have hs : places C (R + 1) = ((List.range C).map fun i => (i, R)) ++ places C R := by
      unfold places
      rw [List.range_succ, List.reverse_append, List.reverse_singleton, List.singleton_append, List.flatMap_cons]
    rw [hs]
    cases a with
    | zero =>
      rw [List.getElem?_append_left (by simpa using hb)]
      simp [hb]
    | succ a =>
      rw [List.getElem?_append_right (by simp; nlinarith)]
      have : (a + 1) * C + b - ((List.range C).map fun i => (i, R)).length = a * C + b := by
        simp only [List.length_map, List.length_range]
        rw [add_mul, one_mul]
        omega
      rw [this, ih a (by omega)]
      congr 2
      omega

/-- **C166**: with one column too many the first number of the second line is read to the end of the row of the first line. -/
theorem places_fails (C R : ℕ) (hR : 1 < R) (hC : 0 < C) :
    (places (C + 1) R)[1 * C + 0]? = some (C, R - 1) ∧ (C, R - 1) ≠ (0, R - 1 - 1) := by
  refine ⟨?_, fun h => by simp at h; omega⟩
  have := places_spec (C + 1) R 0 C (by omega) (by omega)
  simpa using this

example : countRowCol "1\t2\n3\t4\n5\t6\n".toList = some (2, 3) ∧ countRowCol "1\t2\t\n3\t4\t\n".toList = some (3, 2) := by
  decide

end OpenMS.FdtdMetal
