import Verif.Model.FdtdGrid

/-!
# C154: grid of the Maxwell solver
-/

namespace OpenMS.FdtdGrid

/-! ### Common multiple -/

theorem euclid_eq (m n : ℕ) (hn : 0 < n) : euclid m n = some (Nat.gcd m n) := by
  induction n using Nat.strong_induction_on generalizing m with
  | _ n ih =>
    rw [euclid, dif_neg hn.ne']
    by_cases h : m % n = 0
    · rw [if_pos h, Nat.gcd_comm, Nat.gcd_eq_left (Nat.dvd_of_mod_eq_zero h)]
    · rw [if_neg h, ih (m % n) (Nat.mod_lt _ hn) n (Nat.pos_of_ne_zero h), Nat.gcd_comm m n, Nat.gcd_rec n m,
        Nat.gcd_comm n]

theorem lcm2_eq (m n : ℕ) (hm : 0 < m) (hn : 0 < n) : lcm2 m n = some (Nat.lcm m n) := by
  unfold lcm2 gcd2
  by_cases h : n > m
  · rw [if_pos h, euclid_eq n m hm, Option.map_some, Nat.gcd_comm]; rfl
  · rw [if_neg h, euclid_eq m n hn, Option.map_some]; rfl

/-- **C154**: `lcm3` is the least common multiple, and the sizes of the cells in the three directions
are exact: multiplied with the lattice constant they give the same number. -/
theorem cell_sizes (lx ly lz : ℕ) (hx : 0 < lx) (hy : 0 < ly) (hz : 0 < lz) :
    lcm3 lx ly lz = some (Nat.lcm lx (Nat.lcm ly lz)) ∧
    ∃ dx dy dz, cellSize lx ly lz lx = some dx ∧ cellSize lx ly lz ly = some dy ∧ cellSize lx ly lz lz = some dz ∧
      0 < dx ∧ 0 < dy ∧ 0 < dz ∧ dx * lx = dy * ly ∧ dy * ly = dz * lz := by
  have h : lcm3 lx ly lz = some (Nat.lcm lx (Nat.lcm ly lz)) := by
    unfold lcm3
    rw [lcm2_eq ly lz hy hz, Option.bind_some, lcm2_eq lx _ hx (Nat.lcm_pos hy hz)]
  have d1 : lx ∣ Nat.lcm lx (Nat.lcm ly lz) := Nat.dvd_lcm_left _ _
  have d2 : ly ∣ Nat.lcm lx (Nat.lcm ly lz) := (Nat.dvd_lcm_left _ _).trans (Nat.dvd_lcm_right _ _)
  have d3 : lz ∣ Nat.lcm lx (Nat.lcm ly lz) := (Nat.dvd_lcm_right _ _).trans (Nat.dvd_lcm_right _ _)
  have hp : 0 < Nat.lcm lx (Nat.lcm ly lz) := Nat.lcm_pos hx (Nat.lcm_pos hy hz)
  refine ⟨h, _, _, _, by rw [cellSize, h]; rfl, by rw [cellSize, h]; rfl, by rw [cellSize, h]; rfl,
    Nat.div_pos (Nat.le_of_dvd hp d1) hx, Nat.div_pos (Nat.le_of_dvd hp d2) hy, Nat.div_pos (Nat.le_of_dvd hp d3) hz, ?_, ?_⟩
  · rw [Nat.div_mul_cancel d1, Nat.div_mul_cancel d2]
  · rw [Nat.div_mul_cancel d2, Nat.div_mul_cancel d3]

/-- **C154 partial**: the height of a cell of another region is exact if its lattice constant divides
the common multiple, which uses only the largest one. -/
theorem region_size_partial (lx ly lmax l : ℕ) (hx : 0 < lx) (hy : 0 < ly) (hz : 0 < lmax)
    (hl : l ∣ Nat.lcm lx (Nat.lcm ly lmax)) :
    ∃ d dx, cellSize lx ly lmax l = some d ∧ cellSize lx ly lmax lx = some dx ∧ d * l = dx * lx := by
  have h := (cell_sizes lx ly lmax hx hy hz).1
  refine ⟨_, _, by rw [cellSize, h]; rfl, by rw [cellSize, h]; rfl, ?_⟩
  rw [Nat.div_mul_cancel hl, Nat.div_mul_cancel (Nat.dvd_lcm_left _ _)]

/-- **C154 fails**: for every other lattice constant the integer division makes the cells too small. -/
theorem region_size_fails (lx ly lmax l : ℕ) (hx : 0 < lx) (hy : 0 < ly) (hz : 0 < lmax)
    (hl : ¬l ∣ Nat.lcm lx (Nat.lcm ly lmax)) :
    ∃ d dx, cellSize lx ly lmax l = some d ∧ cellSize lx ly lmax lx = some dx ∧ d * l < dx * lx := by
  have h := (cell_sizes lx ly lmax hx hy hz).1
  refine ⟨_, _, by rw [cellSize, h]; rfl, by rw [cellSize, h]; rfl, ?_⟩
  rw [Nat.div_mul_cancel (Nat.dvd_lcm_left _ _)]
  exact lt_of_le_of_ne (Nat.div_mul_le_self _ _) fun he => hl ⟨_, by rw [mul_comm]; exact he.symm⟩

/-- **C154**: for all lattice constants the time step is below the Courant limit of C152 if `S² > 3`
(vacuum, uniform grid): the cells have at least the size one. -/
theorem time_step_stable (eo uo S : ℝ) (he : 0 < eo) (hu : 0 < uo) (hS : 3 < S ^ 2) (lx ly lz dx dy dz : ℕ)
    (hx : 0 < lx) (hy : 0 < ly) (hz : 0 < lz) (ex : cellSize lx ly lz lx = some dx) (ey : cellSize lx ly lz ly = some dy)
    (ez : cellSize lx ly lz lz = some dz) :
    0 < eo * 1 - timeStep eo uo S ^ 2 / (uo * 1) * ((1 / (dx : ℝ)) ^ 2 + (1 / (dy : ℝ)) ^ 2 + (1 / (dz : ℝ)) ^ 2) := by
  obtain ⟨_, a, b, c, e1, e2, e3, p1, p2, p3, _⟩ := cell_sizes lx ly lz hx hy hz
  rw [ex, Option.some.injEq] at e1
  rw [ey, Option.some.injEq] at e2
  rw [ez, Option.some.injEq] at e3
  subst e1; subst e2; subst e3
  have sq : ∀ d : ℕ, 0 < d → (1 / (d : ℝ)) ^ 2 ≤ 1 := by
    intro d hd
    have h1 : (1 : ℝ) ≤ d := by exact_mod_cast hd
    have h2 : 1 / (d : ℝ) ≤ 1 := by rw [div_le_one (by linarith)]; exact h1
    have h3 : 0 ≤ 1 / (d : ℝ) := by positivity
    nlinarith
  have hdt : timeStep eo uo S ^ 2 = eo * uo / S ^ 2 := by
    unfold timeStep
    dsimp only
    rw [div_div_eq_mul_div, one_mul, div_one, div_pow, Real.sq_sqrt (by positivity)]
  rw [hdt, mul_one, mul_one]
  have hS0 : 0 < S ^ 2 := by linarith
  have e : eo * uo / S ^ 2 / uo = eo / S ^ 2 := by field_simp
  rw [e]
  have h1 := sq dx p1
  have h2 := sq dy p2
  have h3 := sq dz p3
  have hpos : 0 < eo / S ^ 2 := by positivity
  have : eo / S ^ 2 * ((1 / (dx : ℝ)) ^ 2 + (1 / (dy : ℝ)) ^ 2 + (1 / (dz : ℝ)) ^ 2) ≤ eo / S ^ 2 * 3 :=
    mul_le_mul_of_nonneg_left (by linarith) hpos.le
  have h4 : eo / S ^ 2 * 3 < eo := by
    rw [div_mul_eq_mul_div, div_lt_iff₀ hS0]
    nlinarith
  linarith

/-- Lattice constants 20, 20 and regions with 30 and 50: the cells with 30 are 3 instead of 10/3. -/
example : ¬30 ∣ Nat.lcm 20 (Nat.lcm 20 50) ∧ cellSize 20 20 50 30 = some 3 := by
  constructor
  · decide
  · rw [cellSize, (cell_sizes 20 20 50 (by norm_num) (by norm_num) (by norm_num)).1]; decide

/-! ### Sorting -/

section sort

variable {α : Type*} (key : α → ℚ)

theorem scanUp_spec (a : ℤ → α) (p : ℚ) (right i : ℤ) (hi : i ≤ right) :
    i ≤ scanUp key a p right i ∧ scanUp key a p right i ≤ right ∧
      (∀ k, i ≤ k → k < scanUp key a p right i → key (a k) < p) ∧
      (p ≤ key (a (scanUp key a p right i)) ∨ scanUp key a p right i = right) := by
  induction hn : (right - i).toNat generalizing i with
  | zero =>
    have : i = right := by omega
    rw [scanUp, if_neg (fun h => by omega)]
    exact ⟨le_refl _, hi, fun k h1 h2 => by omega, Or.inr this⟩
  | succ n ih =>
    rw [scanUp]
    by_cases h : key (a i) < p ∧ i < right
    · rw [if_pos h]
      obtain ⟨h1, h2, h3, h4⟩ := ih (i + 1) (by omega) (by omega)
      refine ⟨by omega, h2, fun k k1 k2 => ?_, h4⟩
      by_cases hk : k = i
      · rw [hk]; exact h.1
      · exact h3 k (by omega) k2
    · rw [if_neg h]
      refine ⟨le_refl _, hi, fun k h1 h2 => by omega, ?_⟩
      by_cases h' : i < right
      · exact Or.inl (not_lt.1 fun hc => h ⟨hc, h'⟩)
      · exact Or.inr (by omega)

theorem scanDown_spec (a : ℤ → α) (p : ℚ) (j l : ℤ) (hl : 0 ≤ l) (hj : l ≤ j) (hs : key (a l) ≤ p) :
    ∃ j', scanDown key a p j = some j' ∧ l ≤ j' ∧ j' ≤ j ∧ key (a j') ≤ p ∧ ∀ k, j' < k → k ≤ j → p < key (a k) := by
  induction hn : (j - l).toNat generalizing j with
  | zero =>
    have : j = l := by omega
    rw [scanDown, if_neg (by omega), this, if_neg (not_lt.2 hs)]
    exact ⟨l, rfl, le_refl _, le_refl _, hs, fun k h1 h2 => by omega⟩
  | succ n ih =>
    rw [scanDown, if_neg (by omega)]
    by_cases h : p < key (a j)
    · rw [if_pos h]
      obtain ⟨j', h1, h2, h3, h4, h5⟩ := ih (j - 1) (by omega) (by omega)
      refine ⟨j', h1, h2, by omega, h4, fun k k1 k2 => ?_⟩
      by_cases hk : k = j
      · rw [hk]; exact h
      · exact h5 k k1 (by omega)
    · rw [if_neg h]
      exact ⟨j, rfl, hj, le_refl _, not_lt.1 h, fun k h1 h2 => by omega⟩

/-- Rearranged between `l` and `r`, untouched elsewhere. -/
def Rearranged (l r : ℤ) (a b : ℤ → α) : Prop :=
  ∃ σ : Equiv.Perm ℤ, (∀ k, b k = a (σ k)) ∧ ∀ k, (k < l ∨ r < k) → σ k = k

omit key in
theorem Rearranged.refl (l r : ℤ) (a : ℤ → α) : Rearranged l r a a := ⟨1, fun _ => rfl, fun _ _ => rfl⟩

omit key in
theorem Rearranged.trans {l r : ℤ} {a b c : ℤ → α} (h1 : Rearranged l r a b) (h2 : Rearranged l r b c) :
    Rearranged l r a c := by
  obtain ⟨σ, s1, s2⟩ := h1
  obtain ⟨τ, t1, t2⟩ := h2
  refine ⟨σ * τ, fun k => by rw [t1, s1]; rfl, fun k hk => ?_⟩
  rw [Equiv.Perm.mul_apply, t2 k hk, s2 k hk]

omit key in
theorem Rearranged.mono {l r l' r' : ℤ} {a b : ℤ → α} (h : Rearranged l r a b) (hl : l' ≤ l) (hr : r ≤ r') :
    Rearranged l' r' a b := by
  obtain ⟨σ, s1, s2⟩ := h
  exact ⟨σ, s1, fun k hk => s2 k (by omega)⟩

omit key in
/-- The positions stay inside. -/
theorem Rearranged.inside {l r : ℤ} {a b : ℤ → α} (h : Rearranged l r a b) (k : ℤ) (hk : l ≤ k ∧ k ≤ r) :
    ∃ m, l ≤ m ∧ m ≤ r ∧ b k = a m := by
  obtain ⟨σ, s1, s2⟩ := h
  refine ⟨σ k, ?_, ?_, s1 k⟩
  · by_contra hc
    have := s2 (σ k) (Or.inl (by omega))
    have := σ.injective this
    omega
  · by_contra hc
    have := s2 (σ k) (Or.inr (by omega))
    have := σ.injective this
    omega

omit key in
theorem Rearranged.outside {l r : ℤ} {a b : ℤ → α} (h : Rearranged l r a b) (k : ℤ) (hk : k < l ∨ r < k) : b k = a k := by
  obtain ⟨σ, s1, s2⟩ := h
  rw [s1, s2 k hk]

omit key in
theorem Rearranged.swap (l r i j : ℤ) (a : ℤ → α) (hi : l ≤ i ∧ i ≤ r) (hj : l ≤ j ∧ j ≤ r) :
    Rearranged l r a (Function.update (Function.update a i (a j)) j (a i)) := by
  refine ⟨Equiv.swap i j, fun k => ?_, fun k hk => Equiv.swap_apply_of_ne_of_ne (by omega) (by omega)⟩
  by_cases h1 : k = j
  · rw [h1, Function.update_self, Equiv.swap_apply_right]
  · rw [Function.update_of_ne h1]
    by_cases h2 : k = i
    · rw [h2, Function.update_self, Equiv.swap_apply_left]
    · rw [Function.update_of_ne h2, Equiv.swap_apply_of_ne_of_ne h2 h1]

theorem partition_spec (p : ℚ) (l r : ℤ) (hl : 0 ≤ l) (m : ℕ) (a : ℤ → α) (i j : ℤ) (hm : j - i + 1 < m)
    (h1 : l ≤ i) (h2 : j ≤ r) (h3 : i ≤ j + 1) (hlo : ∀ k, l ≤ k → k < i → key (a k) ≤ p)
    (hhi : ∀ k, j < k → k ≤ r → p ≤ key (a k)) (up : ∃ u, i ≤ u ∧ u ≤ r ∧ p ≤ key (a u))
    (down : ∃ d, l ≤ d ∧ d ≤ j ∧ key (a d) ≤ p) :
    ∃ b i' j', partitionLoop key p r m a i j = some (b, i', j') ∧ Rearranged l r a b ∧ l ≤ j' ∧ i' ≤ r ∧
      (i' = j' ∨ i' = j' + 1) ∧ (∀ k, l ≤ k → k < i' → key (b k) ≤ p) ∧
      (∀ k, j' < k → k ≤ r → p ≤ key (b k)) ∧ (i' = j' → key (b i') = p) := by
  induction m generalizing a i j with
  | zero =>
    obtain ⟨u, u1, u2, u3⟩ := up
    obtain ⟨d, d1, d2, d3⟩ := down
    exfalso
    push_cast at hm
    omega
  | succ m ih =>
    obtain ⟨u, u1, u2, u3⟩ := up
    obtain ⟨d, d1, d2, d3⟩ := down
    obtain ⟨s1, s2, s3, s4⟩ := scanUp_spec key a p r i (by omega)
    obtain ⟨j', t1, t2, t3, t4, t5⟩ := scanDown_spec key a p j d (by omega) d2 d3
    obtain ⟨i', hi'⟩ : ∃ i', i' = scanUp key a p r i := ⟨_, rfl⟩
    rw [← hi'] at s1 s2 s3 s4
    have hiu : i' ≤ u := by
      by_contra hc
      exact absurd (s3 u u1 (by omega)) (not_lt.2 u3)
    have hip : p ≤ key (a i') := by
      rcases s4 with h | h
      · exact h
      · have : u = i' := by omega
        rw [← this]; exact u3
    have lo : ∀ k, l ≤ k → k < i' → key (a k) ≤ p := by
      intro k k1 k2
      by_cases hk : k < i
      · exact hlo k k1 hk
      · exact (s3 k (by omega) k2).le
    have hi : ∀ k, j' < k → k ≤ r → p ≤ key (a k) := by
      intro k k1 k2
      by_cases hk : j < k
      · exact hhi k hk k2
      · exact (t5 k k1 (by omega)).le
    have hle : i' ≤ j' + 1 := by
      by_contra hc
      by_cases hj : j' = j
      · have := s3 (j + 1) (by omega) (by omega)
        exact absurd this (not_lt.2 (hhi (j + 1) (by omega) (by omega)))
      · have := t5 (j' + 1) (by omega) (by omega)
        exact absurd this (not_lt.2 (lo (j' + 1) (by omega) (by omega)))
    rw [partitionLoop]
    dsimp only
    rw [t1, Option.bind_some, ← hi']
    by_cases hb : i' ≥ j'
    · rw [if_pos hb]
      refine ⟨a, i', j', rfl, Rearranged.refl _ _ _, by omega, s2, by omega, lo, hi, fun h => ?_⟩
      refine le_antisymm ?_ hip
      rw [h]; exact t4
    · rw [if_neg hb]
      have hsw := Rearranged.swap l r i' j' a ⟨by omega, by omega⟩ ⟨by omega, by omega⟩
      obtain ⟨b, hbdef⟩ : ∃ b, b = Function.update (Function.update a i' (a j')) j' (a i') := ⟨_, rfl⟩
      rw [← hbdef] at hsw ⊢
      have bi : b i' = a j' := by
        rw [hbdef, Function.update_of_ne (by omega), Function.update_self]
      have bj : b j' = a i' := by rw [hbdef, Function.update_self]
      have bo : ∀ k, k ≠ i' → k ≠ j' → b k = a k := fun k h1 h2 => by
        rw [hbdef, Function.update_of_ne h2, Function.update_of_ne h1]
      obtain ⟨c, i2, j2, e1, e2, e3⟩ := ih b (i' + 1) (j' - 1) (by push_cast at hm; omega) (by omega) (by omega) (by omega)
        (by
          intro k k1 k2
          by_cases hk : k = i'
          · rw [hk, bi]; exact t4
          · rw [bo k hk (by omega)]; exact lo k k1 (by omega))
        (by
          intro k k1 k2
          by_cases hk : k = j'
          · rw [hk, bj]; exact hip
          · rw [bo k (by omega) hk]; exact hi k (by omega) k2)
        ⟨j', by omega, by omega, by rw [bj]; exact hip⟩
        ⟨i', by omega, by omega, by rw [bi]; exact t4⟩
      exact ⟨c, i2, j2, e1, hsw.trans e2, e3⟩

/-- **C154 partial**: if all starts are integers, `quick_sort_nz_start` reads only inside the array,
ends, and sorts: the elements between `l` and `r` are rearranged, ascending. -/
theorem sort_partial (m : ℕ) (a : ℤ → α) (l r : ℤ) (hl : 0 ≤ l) (hlr : l < r) (hm : r - l < m)
    (hint : ∀ k, l ≤ k → k ≤ r → ∃ z : ℤ, key (a k) = z) :
    ∃ b, quickSort key m a l r = some b ∧ Rearranged l r a b ∧
      ∀ k k', l ≤ k → k ≤ k' → k' ≤ r → key (b k) ≤ key (b k') := by
  induction m generalizing a l r with
  | zero => exfalso; push_cast at hm; omega
  | succ m ih =>
    obtain ⟨q, hq⟩ : ∃ q : ℤ, q = (l + r) / 2 := ⟨_, rfl⟩
    have q1 : l ≤ q ∧ q ≤ r := by omega
    obtain ⟨z, hz⟩ := hint q q1.1 q1.2
    have hpiv : trunc (key (a q)) = z := by
      rw [hz]; unfold trunc
      split_ifs
      · exact Int.floor_intCast z
      · exact Int.ceil_intCast z
    obtain ⟨b, i, j, e1, e2, e3, e4, e5, e6, e7, e8⟩ := partition_spec key (z : ℚ) l r hl (m + 2) a l r
      (by push_cast at hm ⊢; omega) (le_refl _) (le_refl _) (by omega) (fun k h1 h2 => by omega) (fun k h1 h2 => by omega)
      ⟨q, q1.1, q1.2, by rw [hz]⟩ ⟨q, q1.1, q1.2, by rw [hz]⟩
    have intb : ∀ {c d : ℤ → α}, Rearranged l r a c → (c = d) → ∀ k, l ≤ k → k ≤ r → ∃ z : ℤ, key (d k) = z := by
      intro c d hc hcd k k1 k2
      obtain ⟨m', m1, m2, m3⟩ := hc.inside k ⟨k1, k2⟩
      rw [← hcd, m3]; exact hint m' m1 m2
    -- first call
    obtain ⟨c, c1, c2, c3⟩ : ∃ c, (if l < i - 1 then quickSort key m b l (i - 1) else some b) = some c ∧
        Rearranged l (i - 1) b c ∧ ∀ k k', l ≤ k → k ≤ k' → k' ≤ i - 1 → key (c k) ≤ key (c k') := by
      by_cases h : l < i - 1
      · rw [if_pos h]
        exact ih b l (i - 1) hl h (by push_cast at hm; omega) fun k k1 k2 => intb e2 rfl k k1 (by omega)
      · rw [if_neg h]
        refine ⟨b, rfl, Rearranged.refl _ _ _, fun k k' k1 k2 k3 => ?_⟩
        have : k = k' := by omega
        rw [this]
    have ec : Rearranged l r a c := e2.trans (c2.mono (le_refl _) (by omega))
    obtain ⟨d, d1, d2, d3⟩ : ∃ d, (if j + 1 < r then quickSort key m c (j + 1) r else some c) = some d ∧
        Rearranged (j + 1) r c d ∧ ∀ k k', j + 1 ≤ k → k ≤ k' → k' ≤ r → key (d k) ≤ key (d k') := by
      by_cases h : j + 1 < r
      · rw [if_pos h]
        exact ih c (j + 1) r (by omega) h (by push_cast at hm; omega) fun k k1 k2 => intb ec rfl k (by omega) k2
      · rw [if_neg h]
        refine ⟨c, rfl, Rearranged.refl _ _ _, fun k k' k1 k2 k3 => ?_⟩
        have : k = k' := by omega
        rw [this]
    refine ⟨d, ?_, ec.trans (d2.mono (by omega) (le_refl _)), ?_⟩
    · rw [quickSort]
      dsimp only
      rw [← hq, hpiv, e1, Option.bind_some]
      dsimp only
      rw [c1, Option.bind_some, d1]
    · have lowd : ∀ k, l ≤ k → k < i → key (d k) ≤ z := by
        intro k k1 k2
        rw [d2.outside k (by omega)]
        obtain ⟨m', m1, m2, m3⟩ := c2.inside k ⟨k1, by omega⟩
        rw [m3]; exact e6 m' m1 (by omega)
      have highd : ∀ k, j < k → k ≤ r → (z : ℚ) ≤ key (d k) := by
        intro k k1 k2
        obtain ⟨m', m1, m2, m3⟩ := d2.inside k ⟨by omega, k2⟩
        rw [m3, c2.outside m' (by omega)]
        exact e7 m' (by omega) m2
      have mid : i = j → key (d i) = z := by
        intro h
        rw [d2.outside i (by omega), c2.outside i (by omega)]
        exact e8 h
      intro k k' k1 k2 k3
      by_cases h1 : k' ≤ i - 1
      · rw [d2.outside k (by omega), d2.outside k' (by omega)]
        exact c3 k k' k1 k2 h1
      · by_cases h2 : j + 1 ≤ k
        · exact d3 k k' h2 k2 k3
        · have a1 : key (d k) ≤ z := by
            by_cases h : k < i
            · exact lowd k k1 h
            · have h5 : i = j := by omega
              have h6 : k = i := by omega
              rw [h6]; exact (mid h5).le
          have a2 : (z : ℚ) ≤ key (d k') := by
            by_cases h : j < k'
            · exact highd k' h k3
            · have h5 : i = j := by omega
              have h6 : k' = i := by omega
              rw [h6]; exact (mid h5).ge
          exact a1.trans a2

/-- **C154 fails**: if all starts are between 0 and 1, in any order and any number of them, the sort
reads in front of the array, because the pivot is 0. -/
theorem sort_outside_fails (m : ℕ) (a : ℤ → α) (r : ℤ) (hr : 0 < r)
    (h : ∀ k, 0 ≤ k → k ≤ r → 0 < key (a k) ∧ key (a k) < 1) : quickSort key (m + 1) a 0 r = none := by
  have down : ∀ n : ℕ, ∀ j : ℤ, j ≤ r → (j + 1).toNat = n → scanDown key a 0 j = none := by
    intro n
    induction n with
    | zero =>
      intro j _ hj
      rw [scanDown, if_pos (by omega)]
    | succ n ih =>
      intro j hjr hj
      rw [scanDown, if_neg (by omega), if_pos (h j (by omega) hjr).1]
      exact ih (j - 1) (by omega) (by omega)
  have hq := h ((0 + r) / 2) (by omega) (by omega)
  have hpiv : trunc (key (a ((0 + r) / 2))) = 0 := by
    unfold trunc
    rw [if_pos hq.1.le, Int.floor_eq_iff]
    exact ⟨by push_cast; exact hq.1.le, by push_cast; linarith [hq.2]⟩
  rw [quickSort]
  dsimp only
  rw [hpiv, partitionLoop]
  dsimp only
  rw [Int.cast_zero, down _ r (le_refl _) rfl]
  rfl

/-- **C154 fails**: two starts between -1 and 0 are left as they are, so in the wrong order if they
were given so. -/
theorem sort_unsorted_fails (m : ℕ) (a : ℤ → α)
    (h : ∀ k, 0 ≤ k → k ≤ 1 → -1 < key (a k) ∧ key (a k) < 0) : quickSort key (m + 1) a 0 1 = some a := by
  have h0 := h 0 (by omega) (by omega)
  have h1 := h 1 (by omega) (by omega)
  have hpiv : trunc (key (a ((0 + 1) / 2))) = 0 := by
    have : ((0 : ℤ) + 1) / 2 = 0 := by norm_num
    rw [this]
    unfold trunc
    rw [if_neg (by linarith [h0.2]), Int.ceil_eq_iff]
    exact ⟨by push_cast; linarith [h0.1], by push_cast; exact h0.2.le⟩
  have up : scanUp key a 0 1 0 = 1 := by
    rw [scanUp, if_pos ⟨h0.2, by norm_num⟩, scanUp, if_neg (fun h => by omega)]
    norm_num
  have down : scanDown key a 0 1 = some 1 := by
    rw [scanDown, if_neg (by norm_num), if_neg (by linarith [h1.2])]
  rw [quickSort]
  dsimp only
  rw [hpiv, partitionLoop]
  dsimp only
  rw [Int.cast_zero, up, down, Option.bind_some, if_pos (le_refl _)]
  norm_num

/-- Starts 0.2 and 0.5 (in this order), and -0.2 and -0.7. -/
example : quickSort (fun q : ℚ => q) 5 (fun k => if k = 0 then 1 / 5 else 1 / 2) 0 1 = none ∧
    quickSort (fun q : ℚ => q) 5 (fun k => if k = 0 then -1 / 5 else -7 / 10) 0 1 =
      some (fun k => if k = 0 then -1 / 5 else -7 / 10) := by
  constructor
  · refine sort_outside_fails _ 4 _ 1 (by norm_num) fun k _ _ => ?_
    split_ifs <;> norm_num
  · refine sort_unsorted_fails _ 4 _ fun k _ _ => ?_
    split_ifs <;> norm_num

end sort

/-! ### Heights and grid points -/

theorem trunc_int (z : ℤ) : trunc z = z := by
  unfold trunc
  split_ifs
  · exact Int.floor_intCast z
  · exact Int.ceil_intCast z

/-- Heights of the regions on the grid: the number of cells up to the start and inside is whole, and
the regions are in order. -/
def Aligned (lz : ℚ) : List Region → ℚ → Prop
  | [], _ => True
  | r :: rs, bz => bz ≤ r.start ∧ r.start ≤ r.stop ∧ 0 < r.nz ∧ (∃ m : ℤ, (r.start - bz) * lz = m) ∧
      (∃ m : ℤ, (r.stop - r.start) * r.nz = m) ∧ Aligned lz rs r.stop

theorem half_floor (m : ℤ) : ⌊(1 / 2 : ℚ) + m⌋ = m := by
  rw [Int.floor_add_intCast]
  norm_num

theorem zToI_base (lz : ℚ) (rs : List Region) (bz : ℚ) (bg : ℤ) (hr : ∀ r ∈ rs.head?, bz ≤ r.start) :
    zToI lz rs bz bg bz = bg := by
  cases rs with
  | nil => rw [zToI]; norm_num
  | cons r rs =>
    rw [zToI, if_pos (hr r rfl)]
    norm_num

theorem aligned_head {lz : ℚ} {rs : List Region} {bz : ℚ} (h : Aligned lz rs bz) : ∀ r ∈ rs.head?, bz ≤ r.start := by
  cases rs with
  | nil => intro r hr; cases hr
  | cons r rs => rintro r' ⟨⟩; exact h.1

/-- **C154 partial**: with regions on the grid the grid point grows with the height. -/
theorem zToI_mono_partial (lz : ℚ) (hlz : 0 < lz) (rs : List Region) (bz : ℚ) (bg : ℤ) (h : Aligned lz rs bz) :
    Monotone (zToI lz rs bz bg) := by
  induction rs generalizing bz bg with
  | nil =>
    intro z z' hz
    simp only [zToI]
    have : (z - bz) * lz ≤ (z' - bz) * lz := mul_le_mul_of_nonneg_right (by linarith) hlz.le
    have := Int.floor_le_floor (show (1 / 2 : ℚ) + (z - bz) * lz ≤ 1 / 2 + (z' - bz) * lz by linarith)
    omega
  | cons r rs ih =>
    obtain ⟨h1, h2, h3, ⟨m, hm⟩, ⟨n, hn⟩, h6⟩ := h
    have hb : nextBase lz bz bg r = bg + n + m := by
      unfold nextBase
      rw [hm, hn, show ((bg : ℚ) + n + m) = ((bg + n + m : ℤ) : ℚ) by push_cast; ring, trunc_int]
    have ih' := ih r.stop (nextBase lz bz bg r) h6
    -- values on the three pieces
    have v1 : ∀ z, z ≤ r.start → zToI lz (r :: rs) bz bg z = ⌊1 / 2 + (z - bz) * lz⌋ + bg := fun z hz => by
      rw [zToI, if_pos hz]
    have v2 : ∀ z, r.start < z → z ≤ r.stop → zToI lz (r :: rs) bz bg z = ⌊1 / 2 + ((r.start - bz) * lz + (z - r.start) * r.nz)⌋ + bg :=
      fun z h1 h2 => by rw [zToI, if_neg (not_le.2 h1), if_pos ⟨h1, h2⟩]
    have v3 : ∀ z, r.start < z → r.stop < z → zToI lz (r :: rs) bz bg z = zToI lz rs r.stop (nextBase lz bz bg r) z :=
      fun z h1 h2 => by rw [zToI, if_neg (not_le.2 h1), if_neg (fun h => absurd h.2 (not_le.2 h2))]
    have low : ∀ z, z ≤ r.start → zToI lz (r :: rs) bz bg z ≤ m + bg := by
      intro z hz
      rw [v1 z hz]
      have : (z - bz) * lz ≤ m := by rw [← hm]; exact mul_le_mul_of_nonneg_right (by linarith) hlz.le
      have := Int.floor_le_floor (show (1 / 2 : ℚ) + (z - bz) * lz ≤ 1 / 2 + m by linarith)
      rw [half_floor] at this
      omega
    have mid : ∀ z, r.start < z → z ≤ r.stop → m + bg ≤ zToI lz (r :: rs) bz bg z ∧
        zToI lz (r :: rs) bz bg z ≤ m + n + bg := by
      intro z z1 z2
      rw [v2 z z1 z2, hm]
      have a1 : 0 ≤ (z - r.start) * r.nz := mul_nonneg (by linarith) h3.le
      have a2 : (z - r.start) * r.nz ≤ n := by rw [← hn]; exact mul_le_mul_of_nonneg_right (by linarith) h3.le
      have b1 := Int.floor_le_floor (show (1 / 2 : ℚ) + m ≤ 1 / 2 + (m + (z - r.start) * r.nz) by linarith)
      have b2 := Int.floor_le_floor (show (1 / 2 : ℚ) + (m + (z - r.start) * r.nz) ≤ 1 / 2 + ((m + n : ℤ) : ℚ) by push_cast; linarith)
      rw [half_floor] at b1 b2
      omega
    have hn0 : 0 ≤ n := by
      have : (0 : ℚ) ≤ n := by rw [← hn]; exact mul_nonneg (by linarith) h3.le
      exact_mod_cast this
    have high : ∀ z, r.start < z → r.stop < z → m + n + bg ≤ zToI lz (r :: rs) bz bg z := by
      intro z z1 z2
      rw [v3 z z1 z2]
      have := ih' z2.le
      rw [zToI_base lz rs r.stop _ (aligned_head h6), hb] at this
      rw [hb]
      omega
    intro z z' hz
    rcases le_or_gt z' r.start with c1 | c1
    · have c1' : z ≤ r.start := hz.trans c1
      rw [v1 z c1', v1 z' c1]
      have : (z - bz) * lz ≤ (z' - bz) * lz := mul_le_mul_of_nonneg_right (by linarith) hlz.le
      have := Int.floor_le_floor (show (1 / 2 : ℚ) + (z - bz) * lz ≤ 1 / 2 + (z' - bz) * lz by linarith)
      omega
    · rcases le_or_gt z r.start with c2 | c2
      · have := low z c2
        rcases le_or_gt z' r.stop with c3 | c3
        · have := (mid z' c1 c3).1; omega
        · have := high z' c1 c3; omega
      · rcases le_or_gt z' r.stop with c3 | c3
        · rw [v2 z c2 (hz.trans c3), v2 z' c1 c3]
          have : (z - r.start) * r.nz ≤ (z' - r.start) * r.nz := mul_le_mul_of_nonneg_right (by linarith) h3.le
          have := Int.floor_le_floor (show (1 / 2 : ℚ) + ((r.start - bz) * lz + (z - r.start) * r.nz) ≤
            1 / 2 + ((r.start - bz) * lz + (z' - r.start) * r.nz) by linarith)
          omega
        · rcases le_or_gt z r.stop with c4 | c4
          · have := (mid z c2 c4).2
            have := high z' c1 c3
            omega
          · rw [v3 z c2 c4, v3 z' c1 c3]
            exact ih' hz

/-- **C154 fails**: if the number of cells up to the end of the first region has a fraction of one
half or more, the grid point falls just above it, because `base_grid` is cut off while
`non_uniform_z_to_i` rounds. -/
theorem zToI_mono_fails (lz : ℚ) (hlz : 0 < lz) (r : Region) (bz : ℚ) (m : ℤ) (hm : 0 ≤ m)
    (h2 : r.start < r.stop)
    (hf : (m : ℚ) + 1 / 2 ≤ (r.stop - r.start) * r.nz + (r.start - bz) * lz ∧
      (r.stop - r.start) * r.nz + (r.start - bz) * lz < m + 1) :
    ∃ z > r.stop, zToI lz [r] bz 0 z < zToI lz [r] bz 0 r.stop := by
  refine ⟨r.stop + 1 / (4 * lz), by have : 0 < 1 / (4 * lz) := by positivity
                                    linarith, ?_⟩
  have hp : 0 < 1 / (4 * lz) := by positivity
  have hb : nextBase lz bz 0 r = m := by
    unfold nextBase trunc
    have hm' : (0 : ℚ) ≤ m := by exact_mod_cast hm
    rw [if_pos (by push_cast; linarith [hf.1]), Int.floor_eq_iff]
    push_cast
    exact ⟨by linarith [hf.1], by linarith [hf.2]⟩
  have e1 : zToI lz [r] bz 0 (r.stop + 1 / (4 * lz)) = m := by
    rw [zToI, if_neg (by linarith), if_neg (fun h => by linarith [h.2]), zToI, hb]
    have : (r.stop + 1 / (4 * lz) - r.stop) * lz = 1 / 4 := by field_simp; ring
    rw [this]
    norm_num
  have e2 : zToI lz [r] bz 0 r.stop = m + 1 := by
    rw [zToI, if_neg (by linarith), if_pos ⟨h2, le_refl _⟩, add_zero, Int.floor_eq_iff]
    push_cast
    exact ⟨by linarith [hf.1], by linarith [hf.2]⟩
  rw [e1, e2]
  omega

/-- **C154 partial**: with regions on the grid, every grid point from the bottom on is found again
from its height. -/
theorem iToZ_partial (lz : ℚ) (hlz : 0 < lz) (f : ℚ → ℤ) (rs : List Region) (bz : ℚ) (bg : ℤ) (h : Aligned lz rs bz)
    (hf : ∀ r ∈ rs, f r.start = zToI lz rs bz bg r.start ∧ f r.stop = zToI lz rs bz bg r.stop) (i : ℤ) (hi : bg ≤ i) :
    bz ≤ iToZ lz f rs bz bg i ∧ zToI lz rs bz bg (iToZ lz f rs bz bg i) = i := by
  induction rs generalizing bz bg with
  | nil =>
    have hi' : (0 : ℚ) ≤ ((i - bg : ℤ) : ℚ) := by exact_mod_cast (by omega : (0 : ℤ) ≤ i - bg)
    simp only [iToZ, zToI]
    refine ⟨by have := div_nonneg hi' hlz.le; linarith, ?_⟩
    rw [add_sub_cancel_right, div_mul_cancel₀ _ hlz.ne', half_floor]
    omega
  | cons r rs ih =>
    have hmono := zToI_mono_partial lz hlz (r :: rs) bz bg h
    obtain ⟨h1, h2, h3, ⟨m, hm⟩, ⟨n, hn⟩, h6⟩ := h
    have hb : nextBase lz bz bg r = bg + n + m := by
      unfold nextBase
      rw [hm, hn, show ((bg : ℚ) + n + m) = ((bg + n + m : ℤ) : ℚ) by push_cast; ring, trunc_int]
    have s1 : zToI lz (r :: rs) bz bg r.start = m + bg := by
      rw [zToI, if_pos (le_refl _), hm, half_floor]
    have s2 : zToI lz (r :: rs) bz bg r.stop = m + n + bg := by
      rcases eq_or_lt_of_le h2 with he | hlt
      · have hn0 : n = 0 := by
          have : (n : ℚ) = 0 := by rw [← hn, he]; ring
          exact_mod_cast this
        rw [← he, s1, hn0]; ring
      · rw [zToI, if_neg (not_le.2 hlt), if_pos ⟨hlt, le_refl _⟩, hm, hn,
          show (1 / 2 : ℚ) + (m + n) = 1 / 2 + ((m + n : ℤ) : ℚ) by push_cast; ring, half_floor]
    obtain ⟨f1, f2⟩ := hf r (by simp)
    rw [s1] at f1
    rw [s2] at f2
    have hlz' := hlz.ne'
    have h3' := h3.ne'
    have mlz : r.start - bz = m / lz := by rw [← hm]; field_simp
    have nnz : r.stop - r.start = n / r.nz := by rw [← hn]; field_simp
    by_cases c1 : i ≤ f r.start
    · rw [iToZ, if_pos c1]
      have hi' : (0 : ℚ) ≤ ((i - bg : ℤ) : ℚ) := by exact_mod_cast (by omega : (0 : ℤ) ≤ i - bg)
      refine ⟨by have := div_nonneg hi' hlz.le; linarith, ?_⟩
      have hle : ((i - bg : ℤ) : ℚ) / lz + bz ≤ r.start := by
        have : ((i - bg : ℤ) : ℚ) ≤ m := by exact_mod_cast (by omega : i - bg ≤ m)
        have := div_le_div_of_nonneg_right this hlz.le
        linarith
      rw [zToI, if_pos hle, add_sub_cancel_right, div_mul_cancel₀ _ hlz', half_floor]
      omega
    · by_cases c2 : i ≤ f r.stop
      · rw [iToZ, if_neg c1, if_pos ⟨by omega, c2⟩, f1]
        have e0 : ((m + bg - bg : ℤ) : ℚ) / lz = r.start - bz := by rw [mlz]; congr 1; push_cast; ring
        rw [e0]
        have hpos : (0 : ℚ) < ((i - (m + bg) : ℤ) : ℚ) := by exact_mod_cast (by omega : (0 : ℤ) < i - (m + bg))
        have hpos' : 0 < ((i - (m + bg) : ℤ) : ℚ) / r.nz := div_pos hpos h3
        have hle : ((i - (m + bg) : ℤ) : ℚ) / r.nz ≤ r.stop - r.start := by
          rw [nnz]
          refine div_le_div_of_nonneg_right ?_ h3.le
          exact_mod_cast (by omega : i - (m + bg) ≤ n)
        refine ⟨by linarith, ?_⟩
        rw [zToI, if_neg (by linarith), if_pos ⟨by linarith, by linarith⟩]
        have e1 : (r.start - bz + ((i - (m + bg) : ℤ) : ℚ) / r.nz + bz - r.start) * r.nz = ((i - (m + bg) : ℤ) : ℚ) := by
          field_simp; ring
        rw [e1, hm, show (1 / 2 : ℚ) + (m + ((i - (m + bg) : ℤ) : ℚ)) = 1 / 2 + ((i - bg : ℤ) : ℚ) by push_cast; ring,
          half_floor]
        omega
      · rw [iToZ, if_neg c1, if_neg (fun h => c2 h.2)]
        have hst : ∀ r' ∈ rs, r.stop ≤ r'.start ∧ r.stop ≤ r'.stop := by
          clear ih hmono hf s1 s2
          intro r' hr'
          have key : ∀ (rs : List Region) (bz : ℚ), Aligned lz rs bz → ∀ r' ∈ rs, bz ≤ r'.start ∧ bz ≤ r'.stop := by
            intro rs
            induction rs with
            | nil => intro bz _ r' hr'; cases hr'
            | cons q qs ihq =>
              intro bz hA r' hr'
              obtain ⟨g1, g2, _, _, _, g6⟩ := hA
              rcases List.mem_cons.1 hr' with rfl | hr'
              · exact ⟨g1, g1.trans g2⟩
              · obtain ⟨k1, k2⟩ := ihq _ g6 r' hr'
                exact ⟨(g1.trans g2).trans k1, (g1.trans g2).trans k2⟩
          exact key rs r.stop h6 r' hr'
        have hval : ∀ z, r.stop ≤ z → zToI lz (r :: rs) bz bg z = zToI lz rs r.stop (nextBase lz bz bg r) z := by
          intro z hz
          rcases eq_or_lt_of_le hz with he | hlt
          · rw [← he, s2, zToI_base lz rs r.stop _ (aligned_head h6), hb]; ring
          · rw [zToI, if_neg (by linarith), if_neg (fun h => by linarith [h.2])]
        obtain ⟨k1, k2⟩ := ih r.stop (nextBase lz bz bg r) h6 (fun r' hr' => by
          obtain ⟨g1, g2⟩ := hf r' (List.mem_cons_of_mem _ hr')
          obtain ⟨t1, t2⟩ := hst r' hr'
          exact ⟨by rw [g1, hval _ t1], by rw [g2, hval _ t2]⟩) (by rw [hb]; omega)
        exact ⟨by linarith, by rw [hval _ k1, k2]⟩

/-- A grid from -1 to 1 with ten cells per unit and twenty between 0 and 1/2: on the grid. -/
example : Aligned 10 [⟨0, 1 / 2, 20⟩] (-1) ∧ zToI 10 [⟨0, 1 / 2, 20⟩] (-1) 0 (1 / 2) = 20 := by
  refine ⟨⟨by norm_num, by norm_num, by norm_num, ⟨10, by norm_num⟩, ⟨10, by norm_num⟩, trivial⟩, ?_⟩
  norm_num [zToI]

/-- With the end at 0.48 the heights 0.48 and 0.50 come in the wrong order. -/
example : ∃ z > (12 / 25 : ℚ), zToI 10 [⟨0, 12 / 25, 20⟩] (-1) 0 z < zToI 10 [⟨0, 12 / 25, 20⟩] (-1) 0 (12 / 25) :=
  zToI_mono_fails 10 (by norm_num) ⟨0, 12 / 25, 20⟩ (-1) 19 (by norm_num) (by norm_num)
    ⟨by norm_num, by norm_num⟩

end OpenMS.FdtdGrid
