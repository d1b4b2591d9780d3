import Verif.Props.Fdtd
import Verif.Model.FdtdParity

/-!
# Mirror planes of the Maxwell solver (C157)

The fields of a run with parities, continued by mirroring at the planes, obey the update equations on
the whole grid.
-/

namespace OpenMS.Fdtd

set_option linter.unusedSectionVars false
set_option linter.unusedVariables false

variable {K : Type*} [Field K] [DecidableEq K]

/-! ### The mirrored fields -/

/-- Place of the value at `i` in the half that is computed: values of kind `hf` lie half a cell behind
their index, so the plane is between `c - 1` and `c`; the others lie on the plane for `c`. -/
def fold (hf : Bool) (σ c i : ℤ) : ℤ :=
  if Parity.on σ then
    if hf then if c ≤ i then 2 * c - 1 - i else i else if c < i then 2 * c - i else i
  else i

/-- Sign of the value at `i`: the two kinds have opposite parities. -/
def sign (hf : Bool) (σ c i : ℤ) : K :=
  if Parity.on σ then
    if hf then if c ≤ i then (σ : K) else 1 else if c < i then -(σ : K) else 1
  else 1

/-- A component on the whole grid. -/
def mirror (M : Parity) (a b c : Bool) (f : Ix → K) : Ix → K := fun (i, j, k) =>
  sign a M.x M.ci i * sign b M.y M.cj j * sign c M.z M.ck k *
    f (fold a M.x M.ci i, fold b M.y M.cj j, fold c M.z M.ck k)

/-- The electric field on the whole grid. -/
def mirrorE (M : Parity) (e : Ix → EF K) : Ix → EF K := fun c =>
  { x := mirror M true false false (fun d => (e d).x) c
    y := mirror M false true false (fun d => (e d).y) c
    z := mirror M false false true (fun d => (e d).z) c
    Jx := 0, Jy := 0, Jz := 0, Dx := 0, Dy := 0, Dz := 0 }

/-- The magnetic field on the whole grid. -/
def mirrorH (M : Parity) (h : Ix → HF K) : Ix → HF K := fun c =>
  { x := mirror M false true true (fun d => (h d).x) c
    y := mirror M true false true (fun d => (h d).y) c
    z := mirror M true true false (fun d => (h d).z) c
    Bx := 0, By := 0, Bz := 0 }

/-- A quantity of the material on the whole grid. -/
def mirrorEps (M : Parity) (a b c : Bool) (f : Ix → K) : Ix → K := fun (i, j, k) =>
  f (fold a M.x M.ci i, fold b M.y M.cj j, fold c M.z M.ck k)

/-- The whole grid: permittivities and spacings mirrored. -/
def wholePar (P : Par K) (M : Parity) : Par K :=
  { P with
    ds_nz := fun k => P.ds_nz (fold true M.z M.ck k)
    epsilonx := mirrorEps M true false false P.epsilonx
    epsilony := mirrorEps M false true false P.epsilony
    epsilonz := mirrorEps M false false true P.epsilonz }

/-- Sizes set by `Hz_parity`; at least two cells before a plane. -/
def ParitySized (P : Par K) (M : Parity) : Prop :=
  (Parity.on M.x → P.pisize = M.ci + 1 ∧ 2 ≤ M.ci) ∧ (Parity.on M.y → P.pjsize = M.cj + 1 ∧ 2 ≤ M.cj) ∧
    (Parity.on M.z → P.pksize = M.ck + 1 ∧ 2 ≤ M.ck)

/-- Only dielectrics. -/
def Dielectric (P : Par K) : Prop := ∀ c, P.position c = true ∧ P.mepsilon c = 0

/-- Indices of one direction that belong to the computed half or to its mirror image. -/
def Inside (hf : Bool) (σ c p i : ℤ) : Prop :=
  if Parity.on σ then if hf then 1 ≤ i ∧ i ≤ 2 * c - 2 else 1 ≤ i ∧ i ≤ 2 * c - 1 else 1 ≤ i ∧ i < p

/-- The electric field is symmetric at the planes: the values before and behind the plane and the values on it. -/
def EvenE (P : Par K) (M : Parity) (f : Ix → EF K) : Prop :=
  (Parity.on M.x → ∀ j k, 1 ≤ j → j < P.pjsize → 1 ≤ k → k < P.pksize →
    (f (M.ci, j, k)).x = M.x * (f (M.ci - 1, j, k)).x ∧
      (M.x = 1 → (f (M.ci, j, k)).y = 0 ∧ (f (M.ci, j, k)).z = 0)) ∧
  (Parity.on M.y → ∀ i k, 1 ≤ i → i < P.pisize → 1 ≤ k → k < P.pksize →
    (f (i, M.cj, k)).y = M.y * (f (i, M.cj - 1, k)).y ∧
      (M.y = 1 → (f (i, M.cj, k)).x = 0 ∧ (f (i, M.cj, k)).z = 0)) ∧
  (Parity.on M.z → ∀ i j, 1 ≤ i → i < P.pisize → 1 ≤ j → j < P.pjsize →
    (f (i, j, M.ck)).z = M.z * (f (i, j, M.ck - 1)).z ∧
      (M.z = 1 → (f (i, j, M.ck)).x = 0 ∧ (f (i, j, M.ck)).y = 0))

/-- The magnetic field is symmetric at the planes. -/
def EvenH (P : Par K) (M : Parity) (f : Ix → HF K) : Prop :=
  (Parity.on M.x → ∀ j k, 1 ≤ j → j < P.pjsize → 1 ≤ k → k < P.pksize →
    (f (M.ci, j, k)).y = M.x * (f (M.ci - 1, j, k)).y ∧ (f (M.ci, j, k)).z = M.x * (f (M.ci - 1, j, k)).z ∧
      (M.x = 1 → (f (M.ci, j, k)).x = 0)) ∧
  (Parity.on M.y → ∀ i k, 1 ≤ i → i < P.pisize → 1 ≤ k → k < P.pksize →
    (f (i, M.cj, k)).x = M.y * (f (i, M.cj - 1, k)).x ∧ (f (i, M.cj, k)).z = M.y * (f (i, M.cj - 1, k)).z ∧
      (M.y = 1 → (f (i, M.cj, k)).y = 0)) ∧
  (Parity.on M.z → ∀ i j, 1 ≤ i → i < P.pisize → 1 ≤ j → j < P.pjsize →
    (f (i, j, M.ck)).x = M.z * (f (i, j, M.ck - 1)).x ∧ (f (i, j, M.ck)).y = M.z * (f (i, j, M.ck - 1)).y ∧
      (M.z = 1 → (f (i, j, M.ck)).z = 0))

/-- The values before the first cell, which are never computed, are zero. -/
def EdgeH (h : Ix → HF K) : Prop :=
  ∀ c : Ix, c.1 = 0 ∨ c.2.1 = 0 ∨ c.2.2 = 0 → (h c).x = 0 ∧ (h c).y = 0 ∧ (h c).z = 0

/-- The values behind the last cell are zero. -/
def EdgeE (P : Par K) (e : Ix → EF K) : Prop :=
  ∀ c : Ix, c.1 = P.pisize ∨ c.2.1 = P.pjsize ∨ c.2.2 = P.pksize →
    (e c).x = 0 ∧ (e c).y = 0 ∧ (e c).z = 0

/-! ### Lines -/

theorem on_one {σ : ℤ} (h : σ = 1) : Parity.on σ := Or.inl h

/-- Differences of values half a cell behind their index. -/
theorem line_half (σ c j : ℤ) (g : ℤ → K) (hg : Parity.on σ → g c = σ * g (c - 1)) :
    sign true σ c j * g (fold true σ c j) - sign true σ c (j - 1) * g (fold true σ c (j - 1)) =
      sign false σ c j * (g (fold false σ c j) - g (fold false σ c j - 1)) := by
  unfold sign fold
  by_cases hon : Parity.on σ
  · have h1 : (σ : K) * σ = 1 := by rcases hon with h | h <;> rw [h] <;> norm_num
    have hg' := hg hon
    simp only [if_pos hon, if_true, Bool.false_eq_true, if_false]
    rcases lt_trichotomy j c with h | h | h
    · rw [if_neg (by omega), if_neg (by omega), if_neg (by omega), if_neg (by omega), if_neg (by omega),
        if_neg (by omega)]
      ring
    · subst h
      rw [if_pos le_rfl, if_pos le_rfl, if_neg (by omega), if_neg (by omega), if_neg (by omega),
        if_neg (by omega), hg', show 2 * j - 1 - j = j - 1 by ring]
      ring
    · rw [if_pos (by omega), if_pos (by omega), if_pos (by omega), if_pos (by omega), if_pos (by omega),
        if_pos (by omega), show 2 * c - 1 - (j - 1) = 2 * c - j by ring,
        show 2 * c - 1 - j = 2 * c - j - 1 by ring]
      ring
  · simp only [if_neg hon]
    ring

/-- Differences of values at their index. -/
theorem line_int (σ c j : ℤ) (g : ℤ → K) (hg : σ = 1 → g c = 0) :
    sign false σ c (j + 1) * g (fold false σ c (j + 1)) - sign false σ c j * g (fold false σ c j) =
      sign true σ c j * (g (fold true σ c j + 1) - g (fold true σ c j)) := by
  unfold sign fold
  by_cases hon : Parity.on σ
  · simp only [if_pos hon, if_true, Bool.false_eq_true, if_false]
    rcases lt_trichotomy j c with h | h | h
    · rw [if_neg (by omega), if_neg (by omega), if_neg (by omega), if_neg (by omega), if_neg (by omega),
        if_neg (by omega)]
      ring
    · subst h
      rw [if_pos (by omega), if_pos (by omega), if_neg (by omega), if_neg (by omega), if_pos (by omega),
        if_pos (by omega), show 2 * j - (j + 1) = j - 1 by ring, show 2 * j - 1 - j = j - 1 by ring,
        sub_add_cancel]
      rcases hon with h | h
      · rw [hg h, h]; push_cast; ring
      · rw [h]; push_cast; ring
    · rw [if_pos (by omega), if_pos (by omega), if_pos (by omega), if_pos (by omega), if_pos (by omega),
        if_pos (by omega), show 2 * c - 1 - j + 1 = 2 * c - j by ring,
        show 2 * c - (j + 1) = 2 * c - 1 - j by ring]
      ring
  · simp only [if_neg hon]
    ring

/-- The spacings of the electric updates along `z`. -/
theorem line_ds (σ c k : ℤ) (d : ℤ → K) (hd : Parity.on σ → d c = d (c - 1)) :
    d (fold true σ c (k - 1)) + d (fold true σ c k) = d (fold false σ c k - 1) + d (fold false σ c k) := by
  unfold fold
  by_cases hon : Parity.on σ
  · simp only [if_pos hon, if_true, Bool.false_eq_true, if_false]
    rcases lt_trichotomy k c with h | h | h
    · rw [if_neg (by omega), if_neg (by omega), if_neg (by omega)]
    · subst h
      rw [if_neg (by omega), if_pos (by omega), if_neg (by omega), hd hon, show 2 * k - 1 - k = k - 1 by ring]
    · rw [if_pos (by omega), if_pos (by omega), if_pos (by omega),
        show 2 * c - 1 - (k - 1) = 2 * c - k by ring, show 2 * c - 1 - k = 2 * c - k - 1 by ring]
      ring
  · simp only [if_neg hon]

theorem fold_inside {hf : Bool} {σ c p i : ℤ} (hs : Parity.on σ → p = c + 1 ∧ 2 ≤ c)
    (h : Inside hf σ c p i) :
    1 ≤ fold hf σ c i ∧ fold hf σ c i < p ∧ (hf = true → Parity.on σ → fold hf σ c i ≠ c) := by
  unfold Inside at h
  unfold fold
  by_cases hon : Parity.on σ
  · obtain ⟨h1, h2⟩ := hs hon
    rw [if_pos hon] at h ⊢
    cases hf
    · simp only [Bool.false_eq_true, if_false] at h ⊢
      split_ifs <;> refine ⟨by omega, by omega, by simp⟩
    · simp only [if_true] at h ⊢
      split_ifs <;> refine ⟨by omega, by omega, fun _ _ => by omega⟩
  · rw [if_neg hon] at h ⊢
    exact ⟨h.1, h.2, fun _ h => absurd h hon⟩

/-! ### The assignments at the planes -/

theorem plane_copy {V : Type*} (l : List (ℤ × ℤ)) (A S : ℤ × ℤ → Ix) (f : V → V → V)
    (hA : Function.Injective A) (hS : ∀ t u, S t ≠ A u) (hf : ∀ d s, f (f d s) s = f d s) (a : Ix → V) :
    (∀ t ∈ l, copies (l.map fun t => (A t, S t, f)) a (A t) = f (a (A t)) (a (S t))) ∧
    ∀ c, (∀ t ∈ l, c ≠ A t) → copies (l.map fun t => (A t, S t, f)) a c = a c := by
  obtain ⟨h1, h2⟩ := copies_apply (l.map fun t => (A t, S t, f))
    (by
      intro w hw w' hw' h
      obtain ⟨t, -, rfl⟩ := List.mem_map.1 hw
      obtain ⟨u, -, rfl⟩ := List.mem_map.1 hw'
      rw [hA h])
    (by
      intro w hw w' hw'
      obtain ⟨t, -, rfl⟩ := List.mem_map.1 hw
      obtain ⟨u, -, rfl⟩ := List.mem_map.1 hw'
      exact hS t u)
    (by
      intro w hw
      obtain ⟨t, -, rfl⟩ := List.mem_map.1 hw
      exact hf) a
  refine ⟨fun t ht => h1 _ (List.mem_map.2 ⟨t, ht, rfl⟩), fun c hc => h2 c fun w hw => ?_⟩
  obtain ⟨t, ht, rfl⟩ := List.mem_map.1 hw
  exact hc t ht

theorem parityEx_val (P : Par K) (M : Parity) (f : Ix → EF K) (i j k : ℤ) :
    (parityEx P M f (i, j, k)).x =
      (if Parity.on M.x ∧ (i = M.ci ∧ (1 ≤ j ∧ j < P.pjsize) ∧ 1 ≤ k ∧ k < P.pksize) then M.x * (f (M.ci - 1, j, k)).x
        else (f (i, j, k)).x) ∧
    (parityEx P M f (i, j, k)).y =
      (if M.x = 1 ∧ (i = M.ci ∧ (1 ≤ j ∧ j < P.pjsize) ∧ 1 ≤ k ∧ k < P.pksize) then 0 else (f (i, j, k)).y) ∧
    (parityEx P M f (i, j, k)).z =
      (if M.x = 1 ∧ (i = M.ci ∧ (1 ≤ j ∧ j < P.pjsize) ∧ 1 ≤ k ∧ k < P.pksize) then 0 else (f (i, j, k)).z) := by
  have key : ∀ g : EF K → EF K → EF K, (∀ d s, g (g d s) s = g d s) →
      copies ((pairs P.pjsize P.pksize).map fun t => ((M.ci, t.1, t.2), (M.ci - 1, t.1, t.2), g)) f (i, j, k) =
        if (i = M.ci ∧ (1 ≤ j ∧ j < P.pjsize) ∧ 1 ≤ k ∧ k < P.pksize) then g (f (i, j, k)) (f (M.ci - 1, j, k)) else f (i, j, k) := by
    intro g hg
    obtain ⟨h1, h2⟩ := plane_copy (pairs P.pjsize P.pksize) (fun t => (M.ci, t.1, t.2)) (fun t => (M.ci - 1, t.1, t.2)) g
      (by intro t u h; simp only [Prod.mk.injEq] at h; ext <;> omega)
      (by intro t u h; simp only [Prod.mk.injEq] at h; omega) hg f
    split_ifs with h
    · obtain ⟨rfl, h'⟩ := h
      exact h1 (j, k) (mem_pairs.2 h')
    · refine h2 _ fun t ht => ?_
      rintro h'
      simp only [Prod.mk.injEq] at h'
      have := mem_pairs.1 ht
      omega
  unfold parityEx
  by_cases h1 : M.x = 1
  · rw [if_pos h1, key]
    · simp only [Parity.on, h1, true_or, true_and]
      split_ifs <;> simp
    · exact fun _ _ => rfl
  · rw [if_neg h1]
    by_cases h2 : M.x = -1
    · rw [if_pos h2, key]
      · simp only [Parity.on, h2, or_true, true_and]
        split_ifs <;> simp_all
      · exact fun _ _ => rfl
    · rw [if_neg h2]
      simp [Parity.on, h1, h2]

theorem parityEy_val (P : Par K) (M : Parity) (f : Ix → EF K) (i j k : ℤ) :
    (parityEy P M f (i, j, k)).x =
      (if M.y = 1 ∧ (j = M.cj ∧ (1 ≤ i ∧ i < P.pisize) ∧ 1 ≤ k ∧ k < P.pksize) then 0 else (f (i, j, k)).x) ∧
    (parityEy P M f (i, j, k)).y =
      (if Parity.on M.y ∧ (j = M.cj ∧ (1 ≤ i ∧ i < P.pisize) ∧ 1 ≤ k ∧ k < P.pksize) then M.y * (f (i, M.cj - 1, k)).y
        else (f (i, j, k)).y) ∧
    (parityEy P M f (i, j, k)).z =
      (if M.y = 1 ∧ (j = M.cj ∧ (1 ≤ i ∧ i < P.pisize) ∧ 1 ≤ k ∧ k < P.pksize) then 0 else (f (i, j, k)).z) := by
  have key : ∀ g : EF K → EF K → EF K, (∀ d s, g (g d s) s = g d s) →
      copies ((pairs P.pisize P.pksize).map fun t => ((t.1, M.cj, t.2), (t.1, M.cj - 1, t.2), g)) f (i, j, k) =
        if (j = M.cj ∧ (1 ≤ i ∧ i < P.pisize) ∧ 1 ≤ k ∧ k < P.pksize) then g (f (i, j, k)) (f (i, M.cj - 1, k)) else f (i, j, k) := by
    intro g hg
    obtain ⟨h1, h2⟩ := plane_copy (pairs P.pisize P.pksize) (fun t => (t.1, M.cj, t.2)) (fun t => (t.1, M.cj - 1, t.2)) g
      (by intro t u h; simp only [Prod.mk.injEq] at h; ext <;> omega)
      (by intro t u h; simp only [Prod.mk.injEq] at h; omega) hg f
    split_ifs with h
    · obtain ⟨rfl, h'⟩ := h
      exact h1 (i, k) (mem_pairs.2 h')
    · refine h2 _ fun t ht => ?_
      rintro h'
      simp only [Prod.mk.injEq] at h'
      have := mem_pairs.1 ht
      omega
  unfold parityEy
  by_cases h1 : M.y = 1
  · rw [if_pos h1, key]
    · simp only [Parity.on, h1, true_or, true_and]
      split_ifs <;> simp
    · exact fun _ _ => rfl
  · rw [if_neg h1]
    by_cases h2 : M.y = -1
    · rw [if_pos h2, key]
      · simp only [Parity.on, h2, or_true, true_and]
        split_ifs <;> simp_all
      · exact fun _ _ => rfl
    · rw [if_neg h2]
      simp [Parity.on, h1, h2]

theorem parityEz_val (P : Par K) (M : Parity) (f : Ix → EF K) (i j k : ℤ) :
    (parityEz P M f (i, j, k)).x =
      (if M.z = 1 ∧ (k = M.ck ∧ (1 ≤ i ∧ i < P.pisize) ∧ 1 ≤ j ∧ j < P.pjsize) then 0 else (f (i, j, k)).x) ∧
    (parityEz P M f (i, j, k)).y =
      (if M.z = 1 ∧ (k = M.ck ∧ (1 ≤ i ∧ i < P.pisize) ∧ 1 ≤ j ∧ j < P.pjsize) then 0 else (f (i, j, k)).y) ∧
    (parityEz P M f (i, j, k)).z =
      (if Parity.on M.z ∧ (k = M.ck ∧ (1 ≤ i ∧ i < P.pisize) ∧ 1 ≤ j ∧ j < P.pjsize) then M.z * (f (i, j, M.ck - 1)).z
        else (f (i, j, k)).z) := by
  have key : ∀ g : EF K → EF K → EF K, (∀ d s, g (g d s) s = g d s) →
      copies ((pairs P.pisize P.pjsize).map fun t => ((t.1, t.2, M.ck), (t.1, t.2, M.ck - 1), g)) f (i, j, k) =
        if (k = M.ck ∧ (1 ≤ i ∧ i < P.pisize) ∧ 1 ≤ j ∧ j < P.pjsize) then g (f (i, j, k)) (f (i, j, M.ck - 1)) else f (i, j, k) := by
    intro g hg
    obtain ⟨h1, h2⟩ := plane_copy (pairs P.pisize P.pjsize) (fun t => (t.1, t.2, M.ck)) (fun t => (t.1, t.2, M.ck - 1)) g
      (by intro t u h; simp only [Prod.mk.injEq] at h; ext <;> omega)
      (by intro t u h; simp only [Prod.mk.injEq] at h; omega) hg f
    split_ifs with h
    · obtain ⟨rfl, h'⟩ := h
      exact h1 (i, j) (mem_pairs.2 h')
    · refine h2 _ fun t ht => ?_
      rintro h'
      simp only [Prod.mk.injEq] at h'
      have := mem_pairs.1 ht
      omega
  unfold parityEz
  by_cases h1 : M.z = 1
  · rw [if_pos h1, key]
    · simp only [Parity.on, h1, true_or, true_and]
      split_ifs <;> simp
    · exact fun _ _ => rfl
  · rw [if_neg h1]
    by_cases h2 : M.z = -1
    · rw [if_pos h2, key]
      · simp only [Parity.on, h2, or_true, true_and]
        split_ifs <;> simp_all
      · exact fun _ _ => rfl
    · rw [if_neg h2]
      simp [Parity.on, h1, h2]

theorem parityHx_val (P : Par K) (M : Parity) (f : Ix → HF K) (i j k : ℤ) :
    (parityHx P M f (i, j, k)).x =
      (if M.x = 1 ∧ (i = M.ci ∧ (1 ≤ j ∧ j < P.pjsize) ∧ 1 ≤ k ∧ k < P.pksize) then 0 else (f (i, j, k)).x) ∧
    (parityHx P M f (i, j, k)).y =
      (if Parity.on M.x ∧ (i = M.ci ∧ (1 ≤ j ∧ j < P.pjsize) ∧ 1 ≤ k ∧ k < P.pksize) then M.x * (f (M.ci - 1, j, k)).y
        else (f (i, j, k)).y) ∧
    (parityHx P M f (i, j, k)).z =
      (if Parity.on M.x ∧ (i = M.ci ∧ (1 ≤ j ∧ j < P.pjsize) ∧ 1 ≤ k ∧ k < P.pksize) then M.x * (f (M.ci - 1, j, k)).z
        else (f (i, j, k)).z) := by
  have key : ∀ g : HF K → HF K → HF K, (∀ d s, g (g d s) s = g d s) →
      copies ((pairs P.pjsize P.pksize).map fun t => ((M.ci, t.1, t.2), (M.ci - 1, t.1, t.2), g)) f (i, j, k) =
        if (i = M.ci ∧ (1 ≤ j ∧ j < P.pjsize) ∧ 1 ≤ k ∧ k < P.pksize) then g (f (i, j, k)) (f (M.ci - 1, j, k)) else f (i, j, k) := by
    intro g hg
    obtain ⟨h1, h2⟩ := plane_copy (pairs P.pjsize P.pksize) (fun t => (M.ci, t.1, t.2)) (fun t => (M.ci - 1, t.1, t.2)) g
      (by intro t u h; simp only [Prod.mk.injEq] at h; ext <;> omega)
      (by intro t u h; simp only [Prod.mk.injEq] at h; omega) hg f
    split_ifs with h
    · obtain ⟨rfl, h'⟩ := h
      exact h1 (j, k) (mem_pairs.2 h')
    · refine h2 _ fun t ht => ?_
      rintro h'
      simp only [Prod.mk.injEq] at h'
      have := mem_pairs.1 ht
      omega
  unfold parityHx
  by_cases h1 : M.x = 1
  · rw [if_pos h1, key]
    · simp only [Parity.on, h1, true_or, true_and]
      split_ifs <;> simp
    · exact fun _ _ => rfl
  · rw [if_neg h1]
    by_cases h2 : M.x = -1
    · rw [if_pos h2, key]
      · simp only [Parity.on, h2, or_true, true_and]
        split_ifs <;> simp_all
      · exact fun _ _ => rfl
    · rw [if_neg h2]
      simp [Parity.on, h1, h2]

theorem parityHy_val (P : Par K) (M : Parity) (f : Ix → HF K) (i j k : ℤ) :
    (parityHy P M f (i, j, k)).x =
      (if Parity.on M.y ∧ (j = M.cj ∧ (1 ≤ i ∧ i < P.pisize) ∧ 1 ≤ k ∧ k < P.pksize) then M.y * (f (i, M.cj - 1, k)).x
        else (f (i, j, k)).x) ∧
    (parityHy P M f (i, j, k)).y =
      (if M.y = 1 ∧ (j = M.cj ∧ (1 ≤ i ∧ i < P.pisize) ∧ 1 ≤ k ∧ k < P.pksize) then 0 else (f (i, j, k)).y) ∧
    (parityHy P M f (i, j, k)).z =
      (if Parity.on M.y ∧ (j = M.cj ∧ (1 ≤ i ∧ i < P.pisize) ∧ 1 ≤ k ∧ k < P.pksize) then M.y * (f (i, M.cj - 1, k)).z
        else (f (i, j, k)).z) := by
  have key : ∀ g : HF K → HF K → HF K, (∀ d s, g (g d s) s = g d s) →
      copies ((pairs P.pisize P.pksize).map fun t => ((t.1, M.cj, t.2), (t.1, M.cj - 1, t.2), g)) f (i, j, k) =
        if (j = M.cj ∧ (1 ≤ i ∧ i < P.pisize) ∧ 1 ≤ k ∧ k < P.pksize) then g (f (i, j, k)) (f (i, M.cj - 1, k)) else f (i, j, k) := by
    intro g hg
    obtain ⟨h1, h2⟩ := plane_copy (pairs P.pisize P.pksize) (fun t => (t.1, M.cj, t.2)) (fun t => (t.1, M.cj - 1, t.2)) g
      (by intro t u h; simp only [Prod.mk.injEq] at h; ext <;> omega)
      (by intro t u h; simp only [Prod.mk.injEq] at h; omega) hg f
    split_ifs with h
    · obtain ⟨rfl, h'⟩ := h
      exact h1 (i, k) (mem_pairs.2 h')
    · refine h2 _ fun t ht => ?_
      rintro h'
      simp only [Prod.mk.injEq] at h'
      have := mem_pairs.1 ht
      omega
  unfold parityHy
  by_cases h1 : M.y = 1
  · rw [if_pos h1, key]
    · simp only [Parity.on, h1, true_or, true_and]
      split_ifs <;> simp
    · exact fun _ _ => rfl
  · rw [if_neg h1]
    by_cases h2 : M.y = -1
    · rw [if_pos h2, key]
      · simp only [Parity.on, h2, or_true, true_and]
        split_ifs <;> simp_all
      · exact fun _ _ => rfl
    · rw [if_neg h2]
      simp [Parity.on, h1, h2]

theorem parityHz_val (P : Par K) (M : Parity) (f : Ix → HF K) (i j k : ℤ) :
    (parityHz P M f (i, j, k)).x =
      (if Parity.on M.z ∧ (k = M.ck ∧ (1 ≤ i ∧ i < P.pisize) ∧ 1 ≤ j ∧ j < P.pjsize) then M.z * (f (i, j, M.ck - 1)).x
        else (f (i, j, k)).x) ∧
    (parityHz P M f (i, j, k)).y =
      (if Parity.on M.z ∧ (k = M.ck ∧ (1 ≤ i ∧ i < P.pisize) ∧ 1 ≤ j ∧ j < P.pjsize) then M.z * (f (i, j, M.ck - 1)).y
        else (f (i, j, k)).y) ∧
    (parityHz P M f (i, j, k)).z =
      (if M.z = 1 ∧ (k = M.ck ∧ (1 ≤ i ∧ i < P.pisize) ∧ 1 ≤ j ∧ j < P.pjsize) then 0 else (f (i, j, k)).z) := by
  have key : ∀ g : HF K → HF K → HF K, (∀ d s, g (g d s) s = g d s) →
      copies ((pairs P.pisize P.pjsize).map fun t => ((t.1, t.2, M.ck), (t.1, t.2, M.ck - 1), g)) f (i, j, k) =
        if (k = M.ck ∧ (1 ≤ i ∧ i < P.pisize) ∧ 1 ≤ j ∧ j < P.pjsize) then g (f (i, j, k)) (f (i, j, M.ck - 1)) else f (i, j, k) := by
    intro g hg
    obtain ⟨h1, h2⟩ := plane_copy (pairs P.pisize P.pjsize) (fun t => (t.1, t.2, M.ck)) (fun t => (t.1, t.2, M.ck - 1)) g
      (by intro t u h; simp only [Prod.mk.injEq] at h; ext <;> omega)
      (by intro t u h; simp only [Prod.mk.injEq] at h; omega) hg f
    split_ifs with h
    · obtain ⟨rfl, h'⟩ := h
      exact h1 (i, j) (mem_pairs.2 h')
    · refine h2 _ fun t ht => ?_
      rintro h'
      simp only [Prod.mk.injEq] at h'
      have := mem_pairs.1 ht
      omega
  unfold parityHz
  by_cases h1 : M.z = 1
  · rw [if_pos h1, key]
    · simp only [Parity.on, h1, true_or, true_and]
      split_ifs <;> simp
    · exact fun _ _ => rfl
  · rw [if_neg h1]
    by_cases h2 : M.z = -1
    · rw [if_pos h2, key]
      · simp only [Parity.on, h2, or_true, true_and]
        split_ifs <;> simp_all
      · exact fun _ _ => rfl
    · rw [if_neg h2]
      simp [Parity.on, h1, h2]

theorem facts {σ c p : ℤ} (h : Parity.on σ → p = c + 1 ∧ 2 ≤ c) (hon : Parity.on σ) :
    1 ≤ c ∧ c < p ∧ 1 ≤ c - 1 ∧ c - 1 < p ∧ ¬c - 1 = c := by
  have := h hon
  refine ⟨?_, ?_, ?_, ?_, ?_⟩ <;> omega

theorem facts' {σ c p : ℤ} (h : Parity.on σ → p = c + 1 ∧ 2 ≤ c) :
    (¬Parity.on σ ∧ ¬σ = 1) ∨ (Parity.on σ ∧ 1 ≤ c ∧ c < p ∧ 1 ≤ c - 1 ∧ c - 1 < p ∧ ¬c - 1 = c) := by
  by_cases hon : Parity.on σ
  · exact Or.inr ⟨hon, facts h hon⟩
  · exact Or.inl ⟨hon, fun h => hon (Or.inl h)⟩

set_option maxHeartbeats 1000000 in
/-- All three planes. -/
theorem parityE_even (P : Par K) (M : Parity) (hs : ParitySized P M) (f : Ix → EF K) :
    EvenE P M (parityEz P M (parityEy P M (parityEx P M f))) := by
  obtain ⟨hx, hy, hz⟩ := hs
  refine ⟨fun hon j k j1 j2 k1 k2 => ?_, fun hon i k i1 i2 k1 k2 => ?_, fun hon i j i1 i2 j1 j2 => ?_⟩
  · obtain ⟨a0, a1, a2, a3, a4⟩ := facts hx hon
    rcases facts' hy with ⟨b0, b1⟩ | ⟨b, b0, b1, b2, b3, b4⟩ <;>
      rcases facts' hz with ⟨c0, c1⟩ | ⟨c, c0, c1, c2, c3, c4⟩ <;>
      clear hx hy hz <;> refine ⟨?_, fun h => ⟨?_, ?_⟩⟩ <;>
      simp only [parityEz_val, parityEy_val, parityEx_val, *, true_and, and_true, and_self, false_and,
        if_false, if_true] <;>
      (try split_ifs) <;> first | rfl | ring1
  · obtain ⟨a0, a1, a2, a3, a4⟩ := facts hy hon
    rcases facts' hx with ⟨b0, b1⟩ | ⟨b, b0, b1, b2, b3, b4⟩ <;>
      rcases facts' hz with ⟨c0, c1⟩ | ⟨c, c0, c1, c2, c3, c4⟩ <;>
      clear hx hy hz <;> refine ⟨?_, fun h => ⟨?_, ?_⟩⟩ <;>
      simp only [parityEz_val, parityEy_val, parityEx_val, *, true_and, and_true, and_self, false_and,
        if_false, if_true] <;>
      (try split_ifs) <;> first | rfl | ring1
  · obtain ⟨a0, a1, a2, a3, a4⟩ := facts hz hon
    rcases facts' hx with ⟨b0, b1⟩ | ⟨b, b0, b1, b2, b3, b4⟩ <;>
      rcases facts' hy with ⟨c0, c1⟩ | ⟨c, c0, c1, c2, c3, c4⟩ <;>
      clear hx hy hz <;> refine ⟨?_, fun h => ⟨?_, ?_⟩⟩ <;>
      simp only [parityEz_val, parityEy_val, parityEx_val, *, true_and, and_true, and_self, false_and,
        if_false, if_true]

set_option maxHeartbeats 1000000 in
/-- All three planes. -/
theorem parityH_even (P : Par K) (M : Parity) (hs : ParitySized P M) (f : Ix → HF K) :
    EvenH P M (parityHz P M (parityHy P M (parityHx P M f))) := by
  obtain ⟨hx, hy, hz⟩ := hs
  refine ⟨fun hon j k j1 j2 k1 k2 => ?_, fun hon i k i1 i2 k1 k2 => ?_, fun hon i j i1 i2 j1 j2 => ?_⟩
  · obtain ⟨a0, a1, a2, a3, a4⟩ := facts hx hon
    rcases facts' hy with ⟨b0, b1⟩ | ⟨b, b0, b1, b2, b3, b4⟩ <;>
      rcases facts' hz with ⟨c0, c1⟩ | ⟨c, c0, c1, c2, c3, c4⟩ <;>
      clear hx hy hz <;> refine ⟨?_, ?_, fun h => ?_⟩ <;>
      simp only [parityHz_val, parityHy_val, parityHx_val, *, true_and, and_true, and_self, false_and,
        if_false, if_true] <;>
      (try split_ifs) <;> first | rfl | ring1
  · obtain ⟨a0, a1, a2, a3, a4⟩ := facts hy hon
    rcases facts' hx with ⟨b0, b1⟩ | ⟨b, b0, b1, b2, b3, b4⟩ <;>
      rcases facts' hz with ⟨c0, c1⟩ | ⟨c, c0, c1, c2, c3, c4⟩ <;>
      clear hx hy hz <;> refine ⟨?_, ?_, fun h => ?_⟩ <;>
      simp only [parityHz_val, parityHy_val, parityHx_val, *, true_and, and_true, and_self, false_and,
        if_false, if_true] <;>
      (try split_ifs) <;> first | rfl | ring1
  · obtain ⟨a0, a1, a2, a3, a4⟩ := facts hz hon
    rcases facts' hx with ⟨b0, b1⟩ | ⟨b, b0, b1, b2, b3, b4⟩ <;>
      rcases facts' hy with ⟨c0, c1⟩ | ⟨c, c0, c1, c2, c3, c4⟩ <;>
      clear hx hy hz <;> refine ⟨?_, ?_, fun h => ?_⟩ <;>
      simp only [parityHz_val, parityHy_val, parityHx_val, *, true_and, and_true, and_self, false_and,
        if_false, if_true]

/-! ### The differences -/

theorem curlHx_mirror (P : Par K) (M : Parity) (hd : Parity.on M.z → P.ds_nz M.ck = P.ds_nz (M.ck - 1))
    (h : Ix → HF K) (i j k : ℤ)
    (h1 : (Parity.on M.y →
      (h (fold true M.x M.ci i, M.cj, fold false M.z M.ck k)).z = M.y * (h (fold true M.x M.ci i, M.cj - 1, fold false M.z M.ck k)).z))
    (h2 : (Parity.on M.z →
      (h (fold true M.x M.ci i, fold false M.y M.cj j, M.ck)).y = M.z * (h (fold true M.x M.ci i, fold false M.y M.cj j, M.ck - 1)).y)) :
    curlHx (wholePar P M) (mirrorH M h) (i, j, k) =
      sign true M.x M.ci i * sign false M.y M.cj j * sign false M.z M.ck k *
        curlHx P h (fold true M.x M.ci i, fold false M.y M.cj j, fold false M.z M.ck k) := by
  have l1 := line_half M.y M.cj j (fun t => (h (fold true M.x M.ci i, t, fold false M.z M.ck k)).z) h1
  have l2 := line_half M.z M.ck k (fun t => (h (fold true M.x M.ci i, fold false M.y M.cj j, t)).y) h2
  have l3 := line_ds M.z M.ck k P.ds_nz hd
  simp only [curlHx, mirrorH, mirror, wholePar]
  rw [l3]
  linear_combination (sign true M.x M.ci i * sign false M.z M.ck k * (1 / P.ds_y)) * l1 -
    (sign true M.x M.ci i * sign false M.y M.cj j * (2 / (P.ds_nz (fold false M.z M.ck k - 1) + P.ds_nz (fold false M.z M.ck k)))) * l2

theorem curlHy_mirror (P : Par K) (M : Parity) (hd : Parity.on M.z → P.ds_nz M.ck = P.ds_nz (M.ck - 1))
    (h : Ix → HF K) (i j k : ℤ)
    (h1 : (Parity.on M.z →
      (h (fold false M.x M.ci i, fold true M.y M.cj j, M.ck)).x = M.z * (h (fold false M.x M.ci i, fold true M.y M.cj j, M.ck - 1)).x))
    (h2 : (Parity.on M.x →
      (h (M.ci, fold true M.y M.cj j, fold false M.z M.ck k)).z = M.x * (h (M.ci - 1, fold true M.y M.cj j, fold false M.z M.ck k)).z)) :
    curlHy (wholePar P M) (mirrorH M h) (i, j, k) =
      sign false M.x M.ci i * sign true M.y M.cj j * sign false M.z M.ck k *
        curlHy P h (fold false M.x M.ci i, fold true M.y M.cj j, fold false M.z M.ck k) := by
  have l1 := line_half M.z M.ck k (fun t => (h (fold false M.x M.ci i, fold true M.y M.cj j, t)).x) h1
  have l2 := line_half M.x M.ci i (fun t => (h (t, fold true M.y M.cj j, fold false M.z M.ck k)).z) h2
  have l3 := line_ds M.z M.ck k P.ds_nz hd
  simp only [curlHy, mirrorH, mirror, wholePar]
  rw [l3]
  linear_combination (sign false M.x M.ci i * sign true M.y M.cj j * (2 / (P.ds_nz (fold false M.z M.ck k - 1) + P.ds_nz (fold false M.z M.ck k)))) * l1 -
    (sign true M.y M.cj j * sign false M.z M.ck k * (1 / P.ds_x)) * l2

theorem curlHz_mirror (P : Par K) (M : Parity) (hd : Parity.on M.z → P.ds_nz M.ck = P.ds_nz (M.ck - 1))
    (h : Ix → HF K) (i j k : ℤ)
    (h1 : (Parity.on M.x →
      (h (M.ci, fold false M.y M.cj j, fold true M.z M.ck k)).y = M.x * (h (M.ci - 1, fold false M.y M.cj j, fold true M.z M.ck k)).y))
    (h2 : (Parity.on M.y →
      (h (fold false M.x M.ci i, M.cj, fold true M.z M.ck k)).x = M.y * (h (fold false M.x M.ci i, M.cj - 1, fold true M.z M.ck k)).x)) :
    curlHz (wholePar P M) (mirrorH M h) (i, j, k) =
      sign false M.x M.ci i * sign false M.y M.cj j * sign true M.z M.ck k *
        curlHz P h (fold false M.x M.ci i, fold false M.y M.cj j, fold true M.z M.ck k) := by
  have l1 := line_half M.x M.ci i (fun t => (h (t, fold false M.y M.cj j, fold true M.z M.ck k)).y) h1
  have l2 := line_half M.y M.cj j (fun t => (h (fold false M.x M.ci i, t, fold true M.z M.ck k)).x) h2
  simp only [curlHz, mirrorH, mirror, wholePar]
  linear_combination (sign false M.y M.cj j * sign true M.z M.ck k * (1 / P.ds_x)) * l1 -
    (sign false M.x M.ci i * sign true M.z M.ck k * (1 / P.ds_y)) * l2

theorem curlEx_mirror (P : Par K) (M : Parity)
    (e : Ix → EF K) (i j k : ℤ)
    (h1 : (M.y = 1 → (e (fold false M.x M.ci i, M.cj, fold true M.z M.ck k)).z = 0))
    (h2 : (M.z = 1 → (e (fold false M.x M.ci i, fold true M.y M.cj j, M.ck)).y = 0)) :
    curlEx (wholePar P M) (mirrorE M e) (i, j, k) =
      sign false M.x M.ci i * sign true M.y M.cj j * sign true M.z M.ck k *
        curlEx P e (fold false M.x M.ci i, fold true M.y M.cj j, fold true M.z M.ck k) := by
  have l1 := line_int M.y M.cj j (fun t => (e (fold false M.x M.ci i, t, fold true M.z M.ck k)).z) h1
  have l2 := line_int M.z M.ck k (fun t => (e (fold false M.x M.ci i, fold true M.y M.cj j, t)).y) h2
  simp only [curlEx, mirrorE, mirror, wholePar]
  linear_combination (sign false M.x M.ci i * sign true M.z M.ck k * (1 / P.ds_y)) * l1 -
    (sign false M.x M.ci i * sign true M.y M.cj j * (1 / P.ds_nz (fold true M.z M.ck k))) * l2

theorem curlEy_mirror (P : Par K) (M : Parity)
    (e : Ix → EF K) (i j k : ℤ)
    (h1 : (M.z = 1 → (e (fold true M.x M.ci i, fold false M.y M.cj j, M.ck)).x = 0))
    (h2 : (M.x = 1 → (e (M.ci, fold false M.y M.cj j, fold true M.z M.ck k)).z = 0)) :
    curlEy (wholePar P M) (mirrorE M e) (i, j, k) =
      sign true M.x M.ci i * sign false M.y M.cj j * sign true M.z M.ck k *
        curlEy P e (fold true M.x M.ci i, fold false M.y M.cj j, fold true M.z M.ck k) := by
  have l1 := line_int M.z M.ck k (fun t => (e (fold true M.x M.ci i, fold false M.y M.cj j, t)).x) h1
  have l2 := line_int M.x M.ci i (fun t => (e (t, fold false M.y M.cj j, fold true M.z M.ck k)).z) h2
  simp only [curlEy, mirrorE, mirror, wholePar]
  linear_combination (sign true M.x M.ci i * sign false M.y M.cj j * (1 / P.ds_nz (fold true M.z M.ck k))) * l1 -
    (sign false M.y M.cj j * sign true M.z M.ck k * (1 / P.ds_x)) * l2

theorem curlEz_mirror (P : Par K) (M : Parity)
    (e : Ix → EF K) (i j k : ℤ)
    (h1 : (M.x = 1 → (e (M.ci, fold true M.y M.cj j, fold false M.z M.ck k)).y = 0))
    (h2 : (M.y = 1 → (e (fold true M.x M.ci i, M.cj, fold false M.z M.ck k)).x = 0)) :
    curlEz (wholePar P M) (mirrorE M e) (i, j, k) =
      sign true M.x M.ci i * sign true M.y M.cj j * sign false M.z M.ck k *
        curlEz P e (fold true M.x M.ci i, fold true M.y M.cj j, fold false M.z M.ck k) := by
  have l1 := line_int M.x M.ci i (fun t => (e (t, fold true M.y M.cj j, fold false M.z M.ck k)).y) h1
  have l2 := line_int M.y M.cj j (fun t => (e (fold true M.x M.ci i, t, fold false M.z M.ck k)).x) h2
  simp only [curlEz, mirrorE, mirror, wholePar]
  linear_combination (sign true M.y M.cj j * sign false M.z M.ck k * (1 / P.ds_x)) * l1 -
    (sign true M.x M.ci i * sign false M.z M.ck k * (1 / P.ds_y)) * l2

/-! ### The edges -/

theorem sweepE_val (P : Par K) (hm : Dielectric P) (h : Ix → HF K) (e : Ix → EF K) {i j k : ℤ}
    (hi : 1 ≤ i ∧ i < P.pisize) (hj : 1 ≤ j ∧ j < P.pjsize) (hk : 1 ≤ k ∧ k < P.pksize) :
    sweep (stepE P h) (cells P) e (i, j, k) = normalE P h (i, j, k) (e (i, j, k)) := by
  rw [sweep_cells, if_pos (mem_cells.2 ⟨hi, hj, hk⟩)]
  unfold stepE
  simp [hm (i, j, k)]

theorem sweepH_val (P : Par K) (hm : Dielectric P) (h1000 : (1000 : K) ≠ 0) (e : Ix → EF K) (h : Ix → HF K)
    {i j k : ℤ}
    (hi : 1 ≤ i ∧ i < P.pisize) (hj : 1 ≤ j ∧ j < P.pjsize) (hk : 1 ≤ k ∧ k < P.pksize) :
    sweep (stepH P e) (cells P) h (i, j, k) = normalH P e (i, j, k) (h (i, j, k)) := by
  rw [sweep_cells, if_pos (mem_cells.2 ⟨hi, hj, hk⟩)]
  unfold stepH
  simp [hm (i, j, k), h1000.symm]

theorem edgeE_step (P : Par K) (M : Parity) (hs : ParitySized P M) (h : Ix → HF K) (e : Ix → EF K)
    (hE : EdgeE P e) :
    EdgeE P (parityEz P M (parityEy P M (parityEx P M (sweep (stepE P h) (cells P) e)))) := by
  rintro ⟨i, j, k⟩ hc
  dsimp only at hc
  have h0 : sweep (stepE P h) (cells P) e (i, j, k) = e (i, j, k) := by
    rw [sweep_cells, if_neg]
    intro hm
    have := mem_cells.1 hm
    dsimp only at this
    omega
  obtain ⟨hx, hy, hz⟩ := hs
  unfold Parity.on at hx hy hz
  have := hE (i, j, k) hc
  have nx : ¬(Parity.on M.x ∧ i = M.ci ∧ (1 ≤ j ∧ j < P.pjsize) ∧ 1 ≤ k ∧ k < P.pksize) := by
    unfold Parity.on; omega
  have mx : ¬(M.x = 1 ∧ i = M.ci ∧ (1 ≤ j ∧ j < P.pjsize) ∧ 1 ≤ k ∧ k < P.pksize) :=
    fun t => nx ⟨on_one t.1, t.2⟩
  have ny : ¬(Parity.on M.y ∧ j = M.cj ∧ (1 ≤ i ∧ i < P.pisize) ∧ 1 ≤ k ∧ k < P.pksize) := by
    unfold Parity.on; omega
  have my : ¬(M.y = 1 ∧ j = M.cj ∧ (1 ≤ i ∧ i < P.pisize) ∧ 1 ≤ k ∧ k < P.pksize) :=
    fun t => ny ⟨on_one t.1, t.2⟩
  have nz : ¬(Parity.on M.z ∧ k = M.ck ∧ (1 ≤ i ∧ i < P.pisize) ∧ 1 ≤ j ∧ j < P.pjsize) := by
    unfold Parity.on; omega
  have mz : ¬(M.z = 1 ∧ k = M.ck ∧ (1 ≤ i ∧ i < P.pisize) ∧ 1 ≤ j ∧ j < P.pjsize) :=
    fun t => nz ⟨on_one t.1, t.2⟩
  simp only [parityEz_val, parityEy_val, parityEx_val, h0, nx, ny, nz, mx, my, mz, if_false]
  exact this

theorem edgeH_step (P : Par K) (M : Parity) (hs : ParitySized P M) (e : Ix → EF K) (h : Ix → HF K)
    (hE : EdgeH h) :
    EdgeH (parityHz P M (parityHy P M (parityHx P M (sweep (stepH P e) (cells P) h)))) := by
  rintro ⟨i, j, k⟩ hc
  dsimp only at hc
  have h0 : sweep (stepH P e) (cells P) h (i, j, k) = h (i, j, k) := by
    rw [sweep_cells, if_neg]
    intro hm
    have := mem_cells.1 hm
    dsimp only at this
    omega
  obtain ⟨hx, hy, hz⟩ := hs
  unfold Parity.on at hx hy hz
  have := hE (i, j, k) hc
  have nx : ¬(Parity.on M.x ∧ i = M.ci ∧ (1 ≤ j ∧ j < P.pjsize) ∧ 1 ≤ k ∧ k < P.pksize) := by
    unfold Parity.on; omega
  have mx : ¬(M.x = 1 ∧ i = M.ci ∧ (1 ≤ j ∧ j < P.pjsize) ∧ 1 ≤ k ∧ k < P.pksize) :=
    fun t => nx ⟨on_one t.1, t.2⟩
  have ny : ¬(Parity.on M.y ∧ j = M.cj ∧ (1 ≤ i ∧ i < P.pisize) ∧ 1 ≤ k ∧ k < P.pksize) := by
    unfold Parity.on; omega
  have my : ¬(M.y = 1 ∧ j = M.cj ∧ (1 ≤ i ∧ i < P.pisize) ∧ 1 ≤ k ∧ k < P.pksize) :=
    fun t => ny ⟨on_one t.1, t.2⟩
  have nz : ¬(Parity.on M.z ∧ k = M.ck ∧ (1 ≤ i ∧ i < P.pisize) ∧ 1 ≤ j ∧ j < P.pjsize) := by
    unfold Parity.on; omega
  have mz : ¬(M.z = 1 ∧ k = M.ck ∧ (1 ≤ i ∧ i < P.pisize) ∧ 1 ≤ j ∧ j < P.pjsize) :=
    fun t => nz ⟨on_one t.1, t.2⟩
  simp only [parityHz_val, parityHy_val, parityHx_val, h0, nx, ny, nz, mx, my, mz, if_false]
  exact this

/-! ### The step -/

/-- The equation for `Ex` on the whole grid. -/
theorem whole_Ex (P : Par K) (M : Parity) (hs : ParitySized P M) (hm : Dielectric P)
    (hd : Parity.on M.z → P.ds_nz M.ck = P.ds_nz (M.ck - 1)) (e : Ix → EF K) (h : Ix → HF K)
    (hE : EvenE P M e) (hH : EvenH P M h) (hg : EdgeH h) (i j k : ℤ)
    (hi : Inside true M.x M.ci P.pisize i) (hj : Inside false M.y M.cj P.pjsize j) (hk : Inside false M.z M.ck P.pksize k) :
    (mirrorE M (parityEz P M (parityEy P M (parityEx P M (sweep (stepE P h) (cells P) e)))) (i, j, k)).x =
      (normalE (wholePar P M) (mirrorH M h) (i, j, k) (mirrorE M e (i, j, k))).x := by
  have ri := fold_inside hs.1 hi
  have rj := fold_inside hs.2.1 hj
  have rk := fold_inside hs.2.2 hk
  have hc := curlHx_mirror P M hd h i j k (fun hon => (hH.2.1 hon _ _ ri.1 ri.2.1 rk.1 rk.2.1).2.1)
    (fun hon => (hH.2.2 hon _ _ ri.1 ri.2.1 rj.1 rj.2.1).2.1)
  have key : (parityEz P M (parityEy P M (parityEx P M (sweep (stepE P h) (cells P) e)))
      (fold true M.x M.ci i, fold false M.y M.cj j, fold false M.z M.ck k)).x =
      (e (fold true M.x M.ci i, fold false M.y M.cj j, fold false M.z M.ck k)).x + P.dt / P.eo / P.epsilonx (fold true M.x M.ci i, fold false M.y M.cj j, fold false M.z M.ck k) *
        curlHx P h (fold true M.x M.ci i, fold false M.y M.cj j, fold false M.z M.ck k) := by
    have zy : M.y = 1 → fold false M.y M.cj j = M.cj → (e (fold true M.x M.ci i, fold false M.y M.cj j, fold false M.z M.ck k)).x = 0 ∧
        curlHx P h (fold true M.x M.ci i, fold false M.y M.cj j, fold false M.z M.ck k) = 0 := by
      intro hσ hp
      have e1 := (hE.2.1 (on_one hσ) _ _ ri.1 ri.2.1 rk.1 rk.2.1).2 hσ
      have e2 := hH.2.1 (on_one hσ) _ _ ri.1 ri.2.1 rk.1 rk.2.1
      have e3 : (h (fold true M.x M.ci i, M.cj, fold false M.z M.ck k - 1)).y = 0 := by
        by_cases ht : fold false M.z M.ck k = 1
        · exact (hg _ (by rw [ht]; simp)).2.1
        · exact (hH.2.1 (on_one hσ) (fold true M.x M.ci i) (fold false M.z M.ck k - 1) ri.1 ri.2.1 (by omega) (by omega)).2.2 hσ
      rw [hp]
      refine ⟨e1.1, ?_⟩
      have e4 := e2.2.1
      have e5 := e2.2.2 hσ
      rw [hσ] at e4
      push_cast at e4
      rw [one_mul] at e4
      simp only [curlHx, e3, e4, e5, sub_self, zero_div, zero_mul]
    have zz : M.z = 1 → fold false M.z M.ck k = M.ck → (e (fold true M.x M.ci i, fold false M.y M.cj j, fold false M.z M.ck k)).x = 0 ∧
        curlHx P h (fold true M.x M.ci i, fold false M.y M.cj j, fold false M.z M.ck k) = 0 := by
      intro hσ hp
      have e1 := (hE.2.2 (on_one hσ) _ _ ri.1 ri.2.1 rj.1 rj.2.1).2 hσ
      have e2 := hH.2.2 (on_one hσ) _ _ ri.1 ri.2.1 rj.1 rj.2.1
      have e3 : (h (fold true M.x M.ci i, fold false M.y M.cj j - 1, M.ck)).z = 0 := by
        by_cases ht : fold false M.y M.cj j = 1
        · exact (hg _ (by rw [ht]; simp)).2.2
        · exact (hH.2.2 (on_one hσ) (fold true M.x M.ci i) (fold false M.y M.cj j - 1) ri.1 ri.2.1 (by omega) (by omega)).2.2 hσ
      rw [hp]
      refine ⟨e1.1, ?_⟩
      have e4 := e2.2.1
      have e5 := e2.2.2 hσ
      rw [hσ] at e4
      push_cast at e4
      rw [one_mul] at e4
      simp only [curlHx, e3, e4, e5, sub_self, zero_div, zero_mul]
    clear hc
    generalize fold true M.x M.ci i = p at *
    generalize fold false M.y M.cj j = q at *
    generalize fold false M.z M.ck k = r at *
    have hn : Parity.on M.x → p ≠ M.ci := ri.2.2 rfl
    have hv : (sweep (stepE P h) (cells P) e (p, q, r)).x = (e (p, q, r)).x +
        P.dt / P.eo / P.epsilonx (p, q, r) * curlHx P h (p, q, r) := by
      rw [sweepE_val P hm h e ⟨ri.1, ri.2.1⟩ ⟨rj.1, rj.2.1⟩ ⟨rk.1, rk.2.1⟩]
      rfl
    simp only [parityEz_val, parityEy_val, parityEx_val]
    have hn' : ∀ Q : Prop, ¬(Parity.on M.x ∧ p = M.ci ∧ Q) := fun Q t => hn t.1 t.2.1
    simp only [hn', if_false]
    by_cases t1 : M.y = 1 ∧ q = M.cj
    · obtain ⟨u1, u2⟩ := zy t1.1 t1.2
      rw [u1, u2]
      split_ifs <;> first | (simp; done) | (exfalso; omega)
    · by_cases t2 : M.z = 1 ∧ r = M.ck
      · obtain ⟨u1, u2⟩ := zz t2.1 t2.2
        rw [u1, u2]
        split_ifs <;> first | (simp; done) | (exfalso; omega)
      · rw [← hv]
        split_ifs <;> first | rfl | (exfalso; omega)
  simp only [normalE]
  rw [hc]
  simp only [mirrorE, mirror, wholePar, mirrorEps]
  rw [key]
  ring

/-- The equation for `Ey` on the whole grid. -/
theorem whole_Ey (P : Par K) (M : Parity) (hs : ParitySized P M) (hm : Dielectric P)
    (hd : Parity.on M.z → P.ds_nz M.ck = P.ds_nz (M.ck - 1)) (e : Ix → EF K) (h : Ix → HF K)
    (hE : EvenE P M e) (hH : EvenH P M h) (hg : EdgeH h) (i j k : ℤ)
    (hi : Inside false M.x M.ci P.pisize i) (hj : Inside true M.y M.cj P.pjsize j) (hk : Inside false M.z M.ck P.pksize k) :
    (mirrorE M (parityEz P M (parityEy P M (parityEx P M (sweep (stepE P h) (cells P) e)))) (i, j, k)).y =
      (normalE (wholePar P M) (mirrorH M h) (i, j, k) (mirrorE M e (i, j, k))).y := by
  have ri := fold_inside hs.1 hi
  have rj := fold_inside hs.2.1 hj
  have rk := fold_inside hs.2.2 hk
  have hc := curlHy_mirror P M hd h i j k (fun hon => (hH.2.2 hon _ _ ri.1 ri.2.1 rj.1 rj.2.1).1)
    (fun hon => (hH.1 hon _ _ rj.1 rj.2.1 rk.1 rk.2.1).2.1)
  have key : (parityEz P M (parityEy P M (parityEx P M (sweep (stepE P h) (cells P) e)))
      (fold false M.x M.ci i, fold true M.y M.cj j, fold false M.z M.ck k)).y =
      (e (fold false M.x M.ci i, fold true M.y M.cj j, fold false M.z M.ck k)).y + P.dt / P.eo / P.epsilony (fold false M.x M.ci i, fold true M.y M.cj j, fold false M.z M.ck k) *
        curlHy P h (fold false M.x M.ci i, fold true M.y M.cj j, fold false M.z M.ck k) := by
    have zz : M.z = 1 → fold false M.z M.ck k = M.ck → (e (fold false M.x M.ci i, fold true M.y M.cj j, fold false M.z M.ck k)).y = 0 ∧
        curlHy P h (fold false M.x M.ci i, fold true M.y M.cj j, fold false M.z M.ck k) = 0 := by
      intro hσ hp
      have e1 := (hE.2.2 (on_one hσ) _ _ ri.1 ri.2.1 rj.1 rj.2.1).2 hσ
      have e2 := hH.2.2 (on_one hσ) _ _ ri.1 ri.2.1 rj.1 rj.2.1
      have e3 : (h (fold false M.x M.ci i - 1, fold true M.y M.cj j, M.ck)).z = 0 := by
        by_cases ht : fold false M.x M.ci i = 1
        · exact (hg _ (by rw [ht]; simp)).2.2
        · exact (hH.2.2 (on_one hσ) (fold false M.x M.ci i - 1) (fold true M.y M.cj j) (by omega) (by omega) rj.1 rj.2.1).2.2 hσ
      rw [hp]
      refine ⟨e1.2, ?_⟩
      have e4 := e2.1
      have e5 := e2.2.2 hσ
      rw [hσ] at e4
      push_cast at e4
      rw [one_mul] at e4
      simp only [curlHy, e3, e4, e5, sub_self, zero_div, zero_mul]
    have zx : M.x = 1 → fold false M.x M.ci i = M.ci → (e (fold false M.x M.ci i, fold true M.y M.cj j, fold false M.z M.ck k)).y = 0 ∧
        curlHy P h (fold false M.x M.ci i, fold true M.y M.cj j, fold false M.z M.ck k) = 0 := by
      intro hσ hp
      have e1 := (hE.1 (on_one hσ) _ _ rj.1 rj.2.1 rk.1 rk.2.1).2 hσ
      have e2 := hH.1 (on_one hσ) _ _ rj.1 rj.2.1 rk.1 rk.2.1
      have e3 : (h (M.ci, fold true M.y M.cj j, fold false M.z M.ck k - 1)).x = 0 := by
        by_cases ht : fold false M.z M.ck k = 1
        · exact (hg _ (by rw [ht]; simp)).1
        · exact (hH.1 (on_one hσ) (fold true M.y M.cj j) (fold false M.z M.ck k - 1) rj.1 rj.2.1 (by omega) (by omega)).2.2 hσ
      rw [hp]
      refine ⟨e1.1, ?_⟩
      have e4 := e2.2.1
      have e5 := e2.2.2 hσ
      rw [hσ] at e4
      push_cast at e4
      rw [one_mul] at e4
      simp only [curlHy, e3, e4, e5, sub_self, zero_div, zero_mul]
    clear hc
    generalize fold false M.x M.ci i = p at *
    generalize fold true M.y M.cj j = q at *
    generalize fold false M.z M.ck k = r at *
    have hn : Parity.on M.y → q ≠ M.cj := rj.2.2 rfl
    have hv : (sweep (stepE P h) (cells P) e (p, q, r)).y = (e (p, q, r)).y +
        P.dt / P.eo / P.epsilony (p, q, r) * curlHy P h (p, q, r) := by
      rw [sweepE_val P hm h e ⟨ri.1, ri.2.1⟩ ⟨rj.1, rj.2.1⟩ ⟨rk.1, rk.2.1⟩]
      rfl
    simp only [parityEz_val, parityEy_val, parityEx_val]
    have hn' : ∀ Q : Prop, ¬(Parity.on M.y ∧ q = M.cj ∧ Q) := fun Q t => hn t.1 t.2.1
    simp only [hn', if_false]
    by_cases t1 : M.z = 1 ∧ r = M.ck
    · obtain ⟨u1, u2⟩ := zz t1.1 t1.2
      rw [u1, u2]
      split_ifs <;> first | (simp; done) | (exfalso; omega)
    · by_cases t2 : M.x = 1 ∧ p = M.ci
      · obtain ⟨u1, u2⟩ := zx t2.1 t2.2
        rw [u1, u2]
        split_ifs <;> first | (simp; done) | (exfalso; omega)
      · rw [← hv]
        split_ifs <;> first | rfl | (exfalso; omega)
  simp only [normalE]
  rw [hc]
  simp only [mirrorE, mirror, wholePar, mirrorEps]
  rw [key]
  ring

/-- The equation for `Ez` on the whole grid. -/
theorem whole_Ez (P : Par K) (M : Parity) (hs : ParitySized P M) (hm : Dielectric P)
    (hd : Parity.on M.z → P.ds_nz M.ck = P.ds_nz (M.ck - 1)) (e : Ix → EF K) (h : Ix → HF K)
    (hE : EvenE P M e) (hH : EvenH P M h) (hg : EdgeH h) (i j k : ℤ)
    (hi : Inside false M.x M.ci P.pisize i) (hj : Inside false M.y M.cj P.pjsize j) (hk : Inside true M.z M.ck P.pksize k) :
    (mirrorE M (parityEz P M (parityEy P M (parityEx P M (sweep (stepE P h) (cells P) e)))) (i, j, k)).z =
      (normalE (wholePar P M) (mirrorH M h) (i, j, k) (mirrorE M e (i, j, k))).z := by
  have ri := fold_inside hs.1 hi
  have rj := fold_inside hs.2.1 hj
  have rk := fold_inside hs.2.2 hk
  have hc := curlHz_mirror P M hd h i j k (fun hon => (hH.1 hon _ _ rj.1 rj.2.1 rk.1 rk.2.1).1)
    (fun hon => (hH.2.1 hon _ _ ri.1 ri.2.1 rk.1 rk.2.1).1)
  have key : (parityEz P M (parityEy P M (parityEx P M (sweep (stepE P h) (cells P) e)))
      (fold false M.x M.ci i, fold false M.y M.cj j, fold true M.z M.ck k)).z =
      (e (fold false M.x M.ci i, fold false M.y M.cj j, fold true M.z M.ck k)).z + P.dt / P.eo / P.epsilonz (fold false M.x M.ci i, fold false M.y M.cj j, fold true M.z M.ck k) *
        curlHz P h (fold false M.x M.ci i, fold false M.y M.cj j, fold true M.z M.ck k) := by
    have zx : M.x = 1 → fold false M.x M.ci i = M.ci → (e (fold false M.x M.ci i, fold false M.y M.cj j, fold true M.z M.ck k)).z = 0 ∧
        curlHz P h (fold false M.x M.ci i, fold false M.y M.cj j, fold true M.z M.ck k) = 0 := by
      intro hσ hp
      have e1 := (hE.1 (on_one hσ) _ _ rj.1 rj.2.1 rk.1 rk.2.1).2 hσ
      have e2 := hH.1 (on_one hσ) _ _ rj.1 rj.2.1 rk.1 rk.2.1
      have e3 : (h (M.ci, fold false M.y M.cj j - 1, fold true M.z M.ck k)).x = 0 := by
        by_cases ht : fold false M.y M.cj j = 1
        · exact (hg _ (by rw [ht]; simp)).1
        · exact (hH.1 (on_one hσ) (fold false M.y M.cj j - 1) (fold true M.z M.ck k) (by omega) (by omega) rk.1 rk.2.1).2.2 hσ
      rw [hp]
      refine ⟨e1.2, ?_⟩
      have e4 := e2.1
      have e5 := e2.2.2 hσ
      rw [hσ] at e4
      push_cast at e4
      rw [one_mul] at e4
      simp only [curlHz, e3, e4, e5, sub_self, zero_div]
    have zy : M.y = 1 → fold false M.y M.cj j = M.cj → (e (fold false M.x M.ci i, fold false M.y M.cj j, fold true M.z M.ck k)).z = 0 ∧
        curlHz P h (fold false M.x M.ci i, fold false M.y M.cj j, fold true M.z M.ck k) = 0 := by
      intro hσ hp
      have e1 := (hE.2.1 (on_one hσ) _ _ ri.1 ri.2.1 rk.1 rk.2.1).2 hσ
      have e2 := hH.2.1 (on_one hσ) _ _ ri.1 ri.2.1 rk.1 rk.2.1
      have e3 : (h (fold false M.x M.ci i - 1, M.cj, fold true M.z M.ck k)).y = 0 := by
        by_cases ht : fold false M.x M.ci i = 1
        · exact (hg _ (by rw [ht]; simp)).2.1
        · exact (hH.2.1 (on_one hσ) (fold false M.x M.ci i - 1) (fold true M.z M.ck k) (by omega) (by omega) rk.1 rk.2.1).2.2 hσ
      rw [hp]
      refine ⟨e1.2, ?_⟩
      have e4 := e2.1
      have e5 := e2.2.2 hσ
      rw [hσ] at e4
      push_cast at e4
      rw [one_mul] at e4
      simp only [curlHz, e3, e4, e5, sub_self, zero_div]
    clear hc
    generalize fold false M.x M.ci i = p at *
    generalize fold false M.y M.cj j = q at *
    generalize fold true M.z M.ck k = r at *
    have hn : Parity.on M.z → r ≠ M.ck := rk.2.2 rfl
    have hv : (sweep (stepE P h) (cells P) e (p, q, r)).z = (e (p, q, r)).z +
        P.dt / P.eo / P.epsilonz (p, q, r) * curlHz P h (p, q, r) := by
      rw [sweepE_val P hm h e ⟨ri.1, ri.2.1⟩ ⟨rj.1, rj.2.1⟩ ⟨rk.1, rk.2.1⟩]
      rfl
    simp only [parityEz_val, parityEy_val, parityEx_val]
    have hn' : ∀ Q : Prop, ¬(Parity.on M.z ∧ r = M.ck ∧ Q) := fun Q t => hn t.1 t.2.1
    simp only [hn', if_false]
    by_cases t1 : M.x = 1 ∧ p = M.ci
    · obtain ⟨u1, u2⟩ := zx t1.1 t1.2
      rw [u1, u2]
      split_ifs <;> first | (simp; done) | (exfalso; omega)
    · by_cases t2 : M.y = 1 ∧ q = M.cj
      · obtain ⟨u1, u2⟩ := zy t2.1 t2.2
        rw [u1, u2]
        split_ifs <;> first | (simp; done) | (exfalso; omega)
      · rw [← hv]
        split_ifs <;> first | rfl | (exfalso; omega)
  simp only [normalE]
  rw [hc]
  simp only [mirrorE, mirror, wholePar, mirrorEps]
  rw [key]
  ring

/-- The equation for `Hx` on the whole grid. -/
theorem whole_Hx (P : Par K) (M : Parity) (hs : ParitySized P M) (hm : Dielectric P)
    (h1000 : (1000 : K) ≠ 0) (e : Ix → EF K) (h : Ix → HF K)
    (hE : EvenE P M e) (hH : EvenH P M h) (hg : EdgeE P e) (i j k : ℤ)
    (hi : Inside false M.x M.ci P.pisize i) (hj : Inside true M.y M.cj P.pjsize j) (hk : Inside true M.z M.ck P.pksize k) :
    (mirrorH M (parityHz P M (parityHy P M (parityHx P M (sweep (stepH P e) (cells P) h)))) (i, j, k)).x =
      (normalH (wholePar P M) (mirrorE M e) (i, j, k) (mirrorH M h (i, j, k))).x := by
  have ri := fold_inside hs.1 hi
  have rj := fold_inside hs.2.1 hj
  have rk := fold_inside hs.2.2 hk
  have hc := curlEx_mirror P M e i j k (fun hσ => ((hE.2.1 (on_one hσ) _ _ ri.1 ri.2.1 rk.1 rk.2.1).2 hσ).2)
    (fun hσ => ((hE.2.2 (on_one hσ) _ _ ri.1 ri.2.1 rj.1 rj.2.1).2 hσ).2)
  have key : (parityHz P M (parityHy P M (parityHx P M (sweep (stepH P e) (cells P) h)))
      (fold false M.x M.ci i, fold true M.y M.cj j, fold true M.z M.ck k)).x =
      (h (fold false M.x M.ci i, fold true M.y M.cj j, fold true M.z M.ck k)).x - tus P * curlEx P e (fold false M.x M.ci i, fold true M.y M.cj j, fold true M.z M.ck k) := by
    have zz : M.x = 1 → fold false M.x M.ci i = M.ci → (h (fold false M.x M.ci i, fold true M.y M.cj j, fold true M.z M.ck k)).x = 0 ∧
        curlEx P e (fold false M.x M.ci i, fold true M.y M.cj j, fold true M.z M.ck k) = 0 := by
      intro hσ hp
      have e1 := (hE.1 (on_one hσ) _ _ rj.1 rj.2.1 rk.1 rk.2.1).2 hσ
      have e2 := (hH.1 (on_one hσ) _ _ rj.1 rj.2.1 rk.1 rk.2.1).2.2 hσ
      have e3 : (e (M.ci, fold true M.y M.cj j + 1, fold true M.z M.ck k)).z = 0 := by
        by_cases ht : fold true M.y M.cj j + 1 = P.pjsize
        · exact (hg _ (by rw [ht]; simp)).2.2
        · exact ((hE.1 (on_one hσ) (fold true M.y M.cj j + 1) (fold true M.z M.ck k) (by omega) (by omega) rk.1 rk.2.1).2 hσ).2
      have e4 : (e (M.ci, fold true M.y M.cj j, fold true M.z M.ck k + 1)).y = 0 := by
        by_cases ht : fold true M.z M.ck k + 1 = P.pksize
        · exact (hg _ (by rw [ht]; simp)).2.1
        · exact ((hE.1 (on_one hσ) (fold true M.y M.cj j) (fold true M.z M.ck k + 1) rj.1 rj.2.1 (by omega) (by omega)).2 hσ).1
      rw [hp]
      refine ⟨e2, ?_⟩
      simp only [curlEx, e3, e4, e1.1, e1.2, sub_self, zero_div]
    clear hc
    generalize fold false M.x M.ci i = p at *
    generalize fold true M.y M.cj j = q at *
    generalize fold true M.z M.ck k = r at *
    have hnb : ∀ Q : Prop, ¬(Parity.on M.y ∧ q = M.cj ∧ Q) := fun Q t => rj.2.2 rfl t.1 t.2.1
    have hnc : ∀ Q : Prop, ¬(Parity.on M.z ∧ r = M.ck ∧ Q) := fun Q t => rk.2.2 rfl t.1 t.2.1
    have hv : (sweep (stepH P e) (cells P) h (p, q, r)).x = (h (p, q, r)).x -
        tus P * curlEx P e (p, q, r) := by
      rw [sweepH_val P hm h1000 e h ⟨ri.1, ri.2.1⟩ ⟨rj.1, rj.2.1⟩ ⟨rk.1, rk.2.1⟩]
      rfl
    simp only [parityHz_val, parityHy_val, parityHx_val]
    simp only [hnb, hnc, if_false]
    by_cases t1 : M.x = 1 ∧ p = M.ci
    · obtain ⟨u1, u2⟩ := zz t1.1 t1.2
      rw [u1, u2]
      split_ifs <;> first | (simp; done) | (exfalso; omega)
    · rw [← hv]
      split_ifs <;> first | rfl | (exfalso; omega)
  simp only [normalH]
  rw [hc]
  simp only [mirrorH, mirror]
  rw [key]
  rw [show tus (wholePar P M) = tus P from rfl]
  ring

/-- The equation for `Hy` on the whole grid. -/
theorem whole_Hy (P : Par K) (M : Parity) (hs : ParitySized P M) (hm : Dielectric P)
    (h1000 : (1000 : K) ≠ 0) (e : Ix → EF K) (h : Ix → HF K)
    (hE : EvenE P M e) (hH : EvenH P M h) (hg : EdgeE P e) (i j k : ℤ)
    (hi : Inside true M.x M.ci P.pisize i) (hj : Inside false M.y M.cj P.pjsize j) (hk : Inside true M.z M.ck P.pksize k) :
    (mirrorH M (parityHz P M (parityHy P M (parityHx P M (sweep (stepH P e) (cells P) h)))) (i, j, k)).y =
      (normalH (wholePar P M) (mirrorE M e) (i, j, k) (mirrorH M h (i, j, k))).y := by
  have ri := fold_inside hs.1 hi
  have rj := fold_inside hs.2.1 hj
  have rk := fold_inside hs.2.2 hk
  have hc := curlEy_mirror P M e i j k (fun hσ => ((hE.2.2 (on_one hσ) _ _ ri.1 ri.2.1 rj.1 rj.2.1).2 hσ).1)
    (fun hσ => ((hE.1 (on_one hσ) _ _ rj.1 rj.2.1 rk.1 rk.2.1).2 hσ).2)
  have key : (parityHz P M (parityHy P M (parityHx P M (sweep (stepH P e) (cells P) h)))
      (fold true M.x M.ci i, fold false M.y M.cj j, fold true M.z M.ck k)).y =
      (h (fold true M.x M.ci i, fold false M.y M.cj j, fold true M.z M.ck k)).y - tus P * curlEy P e (fold true M.x M.ci i, fold false M.y M.cj j, fold true M.z M.ck k) := by
    have zz : M.y = 1 → fold false M.y M.cj j = M.cj → (h (fold true M.x M.ci i, fold false M.y M.cj j, fold true M.z M.ck k)).y = 0 ∧
        curlEy P e (fold true M.x M.ci i, fold false M.y M.cj j, fold true M.z M.ck k) = 0 := by
      intro hσ hp
      have e1 := (hE.2.1 (on_one hσ) _ _ ri.1 ri.2.1 rk.1 rk.2.1).2 hσ
      have e2 := (hH.2.1 (on_one hσ) _ _ ri.1 ri.2.1 rk.1 rk.2.1).2.2 hσ
      have e3 : (e (fold true M.x M.ci i, M.cj, fold true M.z M.ck k + 1)).x = 0 := by
        by_cases ht : fold true M.z M.ck k + 1 = P.pksize
        · exact (hg _ (by rw [ht]; simp)).1
        · exact ((hE.2.1 (on_one hσ) (fold true M.x M.ci i) (fold true M.z M.ck k + 1) ri.1 ri.2.1 (by omega) (by omega)).2 hσ).1
      have e4 : (e (fold true M.x M.ci i + 1, M.cj, fold true M.z M.ck k)).z = 0 := by
        by_cases ht : fold true M.x M.ci i + 1 = P.pisize
        · exact (hg _ (by rw [ht]; simp)).2.2
        · exact ((hE.2.1 (on_one hσ) (fold true M.x M.ci i + 1) (fold true M.z M.ck k) (by omega) (by omega) rk.1 rk.2.1).2 hσ).2
      rw [hp]
      refine ⟨e2, ?_⟩
      simp only [curlEy, e3, e4, e1.1, e1.2, sub_self, zero_div]
    clear hc
    generalize fold true M.x M.ci i = p at *
    generalize fold false M.y M.cj j = q at *
    generalize fold true M.z M.ck k = r at *
    have hnb : ∀ Q : Prop, ¬(Parity.on M.z ∧ r = M.ck ∧ Q) := fun Q t => rk.2.2 rfl t.1 t.2.1
    have hnc : ∀ Q : Prop, ¬(Parity.on M.x ∧ p = M.ci ∧ Q) := fun Q t => ri.2.2 rfl t.1 t.2.1
    have hv : (sweep (stepH P e) (cells P) h (p, q, r)).y = (h (p, q, r)).y -
        tus P * curlEy P e (p, q, r) := by
      rw [sweepH_val P hm h1000 e h ⟨ri.1, ri.2.1⟩ ⟨rj.1, rj.2.1⟩ ⟨rk.1, rk.2.1⟩]
      rfl
    simp only [parityHz_val, parityHy_val, parityHx_val]
    simp only [hnb, hnc, if_false]
    by_cases t1 : M.y = 1 ∧ q = M.cj
    · obtain ⟨u1, u2⟩ := zz t1.1 t1.2
      rw [u1, u2]
      split_ifs <;> first | (simp; done) | (exfalso; omega)
    · rw [← hv]
      split_ifs <;> first | rfl | (exfalso; omega)
  simp only [normalH]
  rw [hc]
  simp only [mirrorH, mirror]
  rw [key]
  rw [show tus (wholePar P M) = tus P from rfl]
  ring

/-- The equation for `Hz` on the whole grid. -/
theorem whole_Hz (P : Par K) (M : Parity) (hs : ParitySized P M) (hm : Dielectric P)
    (h1000 : (1000 : K) ≠ 0) (e : Ix → EF K) (h : Ix → HF K)
    (hE : EvenE P M e) (hH : EvenH P M h) (hg : EdgeE P e) (i j k : ℤ)
    (hi : Inside true M.x M.ci P.pisize i) (hj : Inside true M.y M.cj P.pjsize j) (hk : Inside false M.z M.ck P.pksize k) :
    (mirrorH M (parityHz P M (parityHy P M (parityHx P M (sweep (stepH P e) (cells P) h)))) (i, j, k)).z =
      (normalH (wholePar P M) (mirrorE M e) (i, j, k) (mirrorH M h (i, j, k))).z := by
  have ri := fold_inside hs.1 hi
  have rj := fold_inside hs.2.1 hj
  have rk := fold_inside hs.2.2 hk
  have hc := curlEz_mirror P M e i j k (fun hσ => ((hE.1 (on_one hσ) _ _ rj.1 rj.2.1 rk.1 rk.2.1).2 hσ).1)
    (fun hσ => ((hE.2.1 (on_one hσ) _ _ ri.1 ri.2.1 rk.1 rk.2.1).2 hσ).1)
  have key : (parityHz P M (parityHy P M (parityHx P M (sweep (stepH P e) (cells P) h)))
      (fold true M.x M.ci i, fold true M.y M.cj j, fold false M.z M.ck k)).z =
      (h (fold true M.x M.ci i, fold true M.y M.cj j, fold false M.z M.ck k)).z - tus P * curlEz P e (fold true M.x M.ci i, fold true M.y M.cj j, fold false M.z M.ck k) := by
    have zz : M.z = 1 → fold false M.z M.ck k = M.ck → (h (fold true M.x M.ci i, fold true M.y M.cj j, fold false M.z M.ck k)).z = 0 ∧
        curlEz P e (fold true M.x M.ci i, fold true M.y M.cj j, fold false M.z M.ck k) = 0 := by
      intro hσ hp
      have e1 := (hE.2.2 (on_one hσ) _ _ ri.1 ri.2.1 rj.1 rj.2.1).2 hσ
      have e2 := (hH.2.2 (on_one hσ) _ _ ri.1 ri.2.1 rj.1 rj.2.1).2.2 hσ
      have e3 : (e (fold true M.x M.ci i + 1, fold true M.y M.cj j, M.ck)).y = 0 := by
        by_cases ht : fold true M.x M.ci i + 1 = P.pisize
        · exact (hg _ (by rw [ht]; simp)).2.1
        · exact ((hE.2.2 (on_one hσ) (fold true M.x M.ci i + 1) (fold true M.y M.cj j) (by omega) (by omega) rj.1 rj.2.1).2 hσ).2
      have e4 : (e (fold true M.x M.ci i, fold true M.y M.cj j + 1, M.ck)).x = 0 := by
        by_cases ht : fold true M.y M.cj j + 1 = P.pjsize
        · exact (hg _ (by rw [ht]; simp)).1
        · exact ((hE.2.2 (on_one hσ) (fold true M.x M.ci i) (fold true M.y M.cj j + 1) ri.1 ri.2.1 (by omega) (by omega)).2 hσ).1
      rw [hp]
      refine ⟨e2, ?_⟩
      simp only [curlEz, e3, e4, e1.1, e1.2, sub_self, zero_div]
    clear hc
    generalize fold true M.x M.ci i = p at *
    generalize fold true M.y M.cj j = q at *
    generalize fold false M.z M.ck k = r at *
    have hnb : ∀ Q : Prop, ¬(Parity.on M.x ∧ p = M.ci ∧ Q) := fun Q t => ri.2.2 rfl t.1 t.2.1
    have hnc : ∀ Q : Prop, ¬(Parity.on M.y ∧ q = M.cj ∧ Q) := fun Q t => rj.2.2 rfl t.1 t.2.1
    have hv : (sweep (stepH P e) (cells P) h (p, q, r)).z = (h (p, q, r)).z -
        tus P * curlEz P e (p, q, r) := by
      rw [sweepH_val P hm h1000 e h ⟨ri.1, ri.2.1⟩ ⟨rj.1, rj.2.1⟩ ⟨rk.1, rk.2.1⟩]
      rfl
    simp only [parityHz_val, parityHy_val, parityHx_val]
    simp only [hnb, hnc, if_false]
    by_cases t1 : M.z = 1 ∧ r = M.ck
    · obtain ⟨u1, u2⟩ := zz t1.1 t1.2
      rw [u1, u2]
      split_ifs <;> first | (simp; done) | (exfalso; omega)
    · rw [← hv]
      split_ifs <;> first | rfl | (exfalso; omega)
  simp only [normalH]
  rw [hc]
  simp only [mirrorH, mirror]
  rw [key]
  rw [show tus (wholePar P M) = tus P from rfl]
  ring

/-- **C157**: with any choice of parities in the three directions, the fields continued by mirroring at the
planes obey the update equations on the whole grid after every step, and the conditions used are kept. -/
theorem parity_step (P : Par K) (M : Parity) (hs : ParitySized P M) (hm : Dielectric P) (h1000 : (1000 : K) ≠ 0)
    (hd : Parity.on M.z → P.ds_nz M.ck = P.ds_nz (M.ck - 1)) (s : St K)
    (hE : EvenE P M s.1) (hH : EvenH P M s.2) (gE : EdgeE P s.1) (gH : EdgeH s.2) :
    (∀ i j k, Inside true M.x M.ci P.pisize i → Inside false M.y M.cj P.pjsize j →
      Inside false M.z M.ck P.pksize k → (mirrorE M (propagateParity P M s).1 (i, j, k)).x =
        (normalE (wholePar P M) (mirrorH M s.2) (i, j, k) (mirrorE M s.1 (i, j, k))).x) ∧
    (∀ i j k, Inside false M.x M.ci P.pisize i → Inside true M.y M.cj P.pjsize j →
      Inside false M.z M.ck P.pksize k → (mirrorE M (propagateParity P M s).1 (i, j, k)).y =
        (normalE (wholePar P M) (mirrorH M s.2) (i, j, k) (mirrorE M s.1 (i, j, k))).y) ∧
    (∀ i j k, Inside false M.x M.ci P.pisize i → Inside false M.y M.cj P.pjsize j →
      Inside true M.z M.ck P.pksize k → (mirrorE M (propagateParity P M s).1 (i, j, k)).z =
        (normalE (wholePar P M) (mirrorH M s.2) (i, j, k) (mirrorE M s.1 (i, j, k))).z) ∧
    (∀ i j k, Inside false M.x M.ci P.pisize i → Inside true M.y M.cj P.pjsize j →
      Inside true M.z M.ck P.pksize k → (mirrorH M (propagateParity P M s).2 (i, j, k)).x =
        (normalH (wholePar P M) (mirrorE M (propagateParity P M s).1) (i, j, k) (mirrorH M s.2 (i, j, k))).x) ∧
    (∀ i j k, Inside true M.x M.ci P.pisize i → Inside false M.y M.cj P.pjsize j →
      Inside true M.z M.ck P.pksize k → (mirrorH M (propagateParity P M s).2 (i, j, k)).y =
        (normalH (wholePar P M) (mirrorE M (propagateParity P M s).1) (i, j, k) (mirrorH M s.2 (i, j, k))).y) ∧
    (∀ i j k, Inside true M.x M.ci P.pisize i → Inside true M.y M.cj P.pjsize j →
      Inside false M.z M.ck P.pksize k → (mirrorH M (propagateParity P M s).2 (i, j, k)).z =
        (normalH (wholePar P M) (mirrorE M (propagateParity P M s).1) (i, j, k) (mirrorH M s.2 (i, j, k))).z) ∧
    EvenE P M (propagateParity P M s).1 ∧ EvenH P M (propagateParity P M s).2 ∧
    EdgeE P (propagateParity P M s).1 ∧ EdgeH (propagateParity P M s).2 := by
  have e1 := parityE_even P M hs (sweep (stepE P s.2) (cells P) s.1)
  have e2 := edgeE_step P M hs s.2 s.1 gE
  refine ⟨fun i j k => whole_Ex P M hs hm hd s.1 s.2 hE hH gH i j k,
    fun i j k => whole_Ey P M hs hm hd s.1 s.2 hE hH gH i j k,
    fun i j k => whole_Ez P M hs hm hd s.1 s.2 hE hH gH i j k,
    fun i j k => whole_Hx P M hs hm h1000 _ s.2 e1 hH e2 i j k,
    fun i j k => whole_Hy P M hs hm h1000 _ s.2 e1 hH e2 i j k,
    fun i j k => whole_Hz P M hs hm h1000 _ s.2 e1 hH e2 i j k,
    e1, parityH_even P M hs _, e2, edgeH_step P M hs _ s.2 gH⟩

/-- The sizes set by `Hz_parity` are those used above, for every grid with at least four cells. -/
theorem hzParity_sized (P : Par K) (x y z a b c : ℤ) (ha : 4 ≤ a) (hb : 4 ≤ b) (hc : 4 ≤ c) :
    ParitySized (hzParity P x y z a b c).1 (hzParity P x y z a b c).2 := by
  unfold ParitySized hzParity
  dsimp only
  refine ⟨fun h => ?_, fun h => ?_, fun h => ?_⟩ <;> rw [if_pos h] <;> split_ifs <;>
    refine ⟨by simp, by omega⟩

/-- Fields in space at the start: a magnetic field along `z` in the cell `(1, j, k)` only. -/
def pulse (j k : ℤ) : Ix → HF K := fun c => ⟨0, 0, if c = (1, j, k) then 1 else 0, 0, 0, 0⟩

/-- The run without parities on the whole grid of `2 c` cells is not the mirror image: it starts from
mirrored fields, but one step changes `Ey` in the first cell and never changes it at the mirror image of this
cell, because the loop ends one cell earlier. -/
theorem whole_run_fails (P : Par K) (hm : Dielectric P) (σ c j k : ℤ) (hσ : Parity.on σ) (hc : 2 ≤ c)
    (hp : P.pisize = 2 * c - 1) (hx : P.use_periodic_x = false) (hy : P.use_periodic_y = false)
    (hj : 1 ≤ j ∧ j < P.pjsize) (hk : 1 ≤ k ∧ k < P.pksize)
    (hn : P.dt / P.eo / P.epsilony (1, j, k) / P.ds_x ≠ 0) :
    let s : St K := (fun _ => ⟨0, 0, 0, 0, 0, 0, 0, 0, 0⟩, mirrorH ⟨σ, 0, 0, c, 0, 0⟩ (pulse j k))
    ((propagate P s).1 (2 * c - 1, j, k)).y ≠ -(σ : K) * ((propagate P s).1 (1, j, k)).y := by
  intro s
  have hs : (propagate P s).1 = sweep (stepE P s.2) (cells P) s.1 := by
    unfold propagate
    simp [hx, hy]
  have h0 : ¬Parity.on 0 := by unfold Parity.on; omega
  rw [hs, sweepE_val P hm s.2 s.1 ⟨le_rfl, by omega⟩ hj hk, sweep_cells, if_neg (by
    intro h
    have := mem_cells.1 h
    dsimp only at this
    omega)]
  have v1 : (s.2 (1, j, k)).z = 1 := by
    simp only [s, mirrorH, mirror, sign, fold, if_pos hσ, if_neg h0, pulse]
    simp [show ¬c ≤ 1 by omega]
  have v0 : (s.2 (1 - 1, j, k)).z = 0 := by
    simp only [s, mirrorH, mirror, sign, fold, if_pos hσ, if_neg h0, pulse]
    simp [show ¬c ≤ 0 by omega]
  have vx : ∀ d, (s.2 d).x = 0 := fun d => by simp [s, mirrorH, mirror, pulse]
  have h1 : (σ : K) ≠ 0 := by rcases hσ with h | h <;> rw [h] <;> norm_num
  have e0 : ∀ d, (s.1 d).y = 0 := fun d => rfl
  simp only [normalE, curlHy, v1, v0, vx, e0]
  intro h
  apply mul_ne_zero h1 hn
  linear_combination -h

/-! ### Examples -/

/-- Vacuum. -/
def vacuum : Par ℚ where
  dt := 1 / 2
  eo := 1
  uo := 1
  ups := 1
  ds_x := 1
  ds_y := 1
  ds_nz := fun _ => 1
  pisize := 7
  pjsize := 7
  pksize := 7
  isize := 8
  jsize := 8
  use_periodic_x := false
  use_periodic_y := false
  position := fun _ => true
  mepsilon := fun _ => 0
  epsilonx := fun _ => 1
  epsilony := fun _ => 1
  epsilonz := fun _ => 1
  momega := fun _ => 0
  mgamma := fun _ => 0
  dPx := fun _ => 0
  dPy := fun _ => 0
  dPz := fun _ => 0
  dPx_old := fun _ => 0
  dPy_old := fun _ => 0
  dPz_old := fun _ => 0
  ddx := fun _ => 0
  ddy := fun _ => 0
  ddz := fun _ => 0
  aax := fun _ => 0
  aay := fun _ => 0
  aaz := fun _ => 0
  bbx := fun _ => 0
  bby := fun _ => 0
  bbz := fun _ => 0
  ccx := fun _ => 0
  ccy := fun _ => 0
  ccz := fun _ => 0
  eex := fun _ => 0
  eey := fun _ => 0
  eez := fun _ => 0
  ffx := fun _ => 0
  ffy := fun _ => 0
  ffz := fun _ => 0
  ggx := fun _ => 0
  ggy := fun _ => 0
  ggz := fun _ => 0
  hhx := fun _ => 0
  hhy := fun _ => 0
  hhz := fun _ => 0
  iix := fun _ => 0
  iiy := fun _ => 0
  iiz := fun _ => 0
  jjx := fun _ => 0
  jjy := fun _ => 0
  jjz := fun _ => 0
  kkx := fun _ => 0
  kky := fun _ => 0
  kkz := fun _ => 0
  llx := fun _ => 0
  lly := fun _ => 0
  llz := fun _ => 0

theorem vacuum_dielectric (a b c : ℤ) (x y z : ℤ) : Dielectric (hzParity vacuum x y z a b c).1 := by
  intro d
  unfold hzParity
  dsimp only
  split_ifs <;> exact ⟨rfl, rfl⟩

/-- An electric field along `z` in one cell and no magnetic field. -/
def glint : St ℚ := (fun c => ⟨0, 0, if c = (2, 2, 2) then 1 else 0, 0, 0, 0, 0, 0, 0⟩, fun _ => ⟨0, 0, 0, 0, 0, 0⟩)

/-- Parities of all three directions in a grid of eight cells in each of them: every number of steps keeps
the conditions of `parity_step`. -/
example (n : ℕ) : let Q := hzParity vacuum 1 (-1) 1 8 8 8
    EvenE Q.1 Q.2 ((propagateParity Q.1 Q.2)^[n] glint).1 ∧ EvenH Q.1 Q.2 ((propagateParity Q.1 Q.2)^[n] glint).2 ∧
    EdgeE Q.1 ((propagateParity Q.1 Q.2)^[n] glint).1 ∧ EdgeH ((propagateParity Q.1 Q.2)^[n] glint).2 := by
  intro Q
  induction n with
  | zero =>
    refine ⟨⟨fun _ j k _ _ _ _ => ?_, fun _ i k _ _ _ _ => ?_, fun _ i j _ _ _ _ => ?_⟩,
      ⟨fun _ j k _ _ _ _ => ?_, fun _ i k _ _ _ _ => ?_, fun _ i j _ _ _ _ => ?_⟩, ?_, ?_⟩
    · simp [glint, Q, hzParity]
    · simp [glint, Q, hzParity]
    · simp [glint, Q, hzParity]
    · simp [glint, Q, hzParity]
    · simp [glint, Q, hzParity]
    · simp [glint, Q, hzParity]
    · rintro ⟨i, j, k⟩ h
      simp only [Q, hzParity, Parity.on] at h
      norm_num at h
      simp only [Function.iterate_zero, id_eq, glint, Prod.mk.injEq, true_and]
      rw [if_neg (by omega)]
    · intro c _
      exact ⟨rfl, rfl, rfl⟩
  | succ n ih =>
    rw [Function.iterate_succ_apply']
    obtain ⟨h1, h2, h3, h4⟩ := ih
    have := parity_step Q.1 Q.2 (hzParity_sized vacuum 1 (-1) 1 8 8 8 (by norm_num) (by norm_num) (by norm_num))
      (vacuum_dielectric _ _ _ _ _ _) (by norm_num) (fun _ => by
        unfold Q hzParity
        dsimp only
        split_ifs <;> rfl) _ h1 h2 h3 h4
    exact this.2.2.2.2.2.2

example : ((propagate vacuum (fun _ => ⟨0, 0, 0, 0, 0, 0, 0, 0, 0⟩, mirrorH ⟨1, 0, 0, 4, 0, 0⟩ (pulse 1 1))).1 (7, 1, 1)).y ≠
    -((1 : ℤ) : ℚ) * ((propagate vacuum (fun _ => ⟨0, 0, 0, 0, 0, 0, 0, 0, 0⟩, mirrorH ⟨1, 0, 0, 4, 0, 0⟩ (pulse 1 1))).1 (1, 1, 1)).y :=
  whole_run_fails vacuum (fun _ => ⟨rfl, rfl⟩) 1 4 1 1 (Or.inl rfl) (by norm_num) rfl rfl rfl
    ⟨le_rfl, by norm_num [vacuum]⟩ ⟨le_rfl, by norm_num [vacuum]⟩ (by norm_num [vacuum])

end OpenMS.Fdtd
