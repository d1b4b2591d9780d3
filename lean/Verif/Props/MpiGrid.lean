import Verif.Model.MpiGrid

/-!
# C155: distribution of the Maxwell grid over the processes

The neighbours of the processes match: what one sends, the other receives.  The ranges of the processes
are a partition of the grid exactly when every size is a multiple of the number of processes.  The two
searches for the point of a source are compared with the range of the process.
-/

namespace OpenMS.MpiGrid

open Function

/-! ### Neighbours -/

/-- Along every direction a process receives the electric field from the process that sends it there, the
magnetic field goes the opposite way, and all neighbours are processes. -/
theorem neighbours_match (procs c : Fin 3 → ℤ) (hc : Valid procs c) (i : Fin 3) :
    Valid procs (eSend procs c i) ∧ Valid procs (eRecv procs c i) ∧
    eRecv procs (eSend procs c i) i = c ∧ eSend procs (eRecv procs c i) i = c ∧
    hRecv procs (hSend procs c i) i = c ∧ hSend procs (hRecv procs c i) i = c ∧
    hSend procs c i = eRecv procs c i ∧ hRecv procs c i = eSend procs c i := by
  have h := hc i
  have hd : 0 ≤ down (procs i) (c i) ∧ down (procs i) (c i) < procs i := by
    unfold down; split_ifs <;> omega
  have hu : 0 ≤ up (procs i) (c i) ∧ up (procs i) (c i) < procs i := by
    unfold up; split_ifs <;> omega
  have hud : up (procs i) (down (procs i) (c i)) = c i := by
    unfold up down; split_ifs <;> omega
  have hdu : down (procs i) (up (procs i) (c i)) = c i := by
    unfold up down; split_ifs <;> omega
  have val : ∀ v, 0 ≤ v ∧ v < procs i → Valid procs (update c i v) := by
    intro v hv j
    by_cases hj : j = i
    · subst hj; simpa using hv
    · simpa [update_of_ne hj] using hc j
  refine ⟨val _ hd, val _ hu, ?_, ?_, ?_, ?_, rfl, rfl⟩ <;>
    simp [eSend, eRecv, hSend, hRecv, hud, hdu]

/-- Sending the electric field round the ring of `procs i` processes comes back, and on the way every
process of the ring is met. -/
theorem ring (procs c : Fin 3 → ℤ) (hc : Valid procs c) (i : Fin 3) (v : ℤ) (hv : 0 ≤ v ∧ v < procs i) :
    ∃ n : ℕ, (n : ℤ) < procs i ∧ (fun d => eRecv procs d i)^[n] c = update c i v := by
  have h := hc i
  have key : ∀ n : ℕ, (fun d => eRecv procs d i)^[n] c = update c i ((c i + n) % procs i) := by
    intro n
    induction n with
    | zero => simp [Int.emod_eq_of_lt h.1 h.2]
    | succ n ih =>
      rw [iterate_succ_apply', ih]
      simp only [eRecv, update_self, update_idem]
      congr 1
      have hp : 0 < procs i := by omega
      have h1 := Int.emod_nonneg (c i + n) hp.ne'
      have h2 := Int.emod_lt_of_pos (c i + n) hp
      have h3 : (c i + ((n + 1 : ℕ) : ℤ)) % procs i = ((c i + n) % procs i + 1) % procs i := by
        rw [Int.emod_add_emod]; congr 1; push_cast; ring
      rw [h3]
      unfold up
      split_ifs with hh
      · rw [hh]; simp
      · exact (Int.emod_eq_of_lt (by omega) (by omega)).symm
  refine ⟨((v - c i) % procs i).toNat, ?_, ?_⟩
  · rw [Int.toNat_of_nonneg (Int.emod_nonneg _ (by omega))]
    exact Int.emod_lt_of_pos _ (by omega)
  · rw [key, Int.toNat_of_nonneg (Int.emod_nonneg _ (by omega)), Int.add_emod_emod]
    congr 1
    rw [add_sub_cancel, Int.emod_eq_of_lt hv.1 hv.2]

/-! ### Ranges -/

/-- The process `c` holds the cell `x`. -/
def Holds (size procs c x : Fin 3 → ℤ) : Prop :=
  ∀ i, (ends size procs c i).1 ≤ x i ∧ x i ≤ (ends size procs c i).2

/-- Every cell of the grid is held by exactly one process, and no process holds a cell outside. -/
def Partition (size procs : Fin 3 → ℤ) : Prop :=
  (∀ x : Fin 3 → ℤ, (∀ i, 1 ≤ x i ∧ x i ≤ size i) → ∃! c, Valid procs c ∧ Holds size procs c x) ∧
  ∀ c x, Valid procs c → Holds size procs c x → ∀ i, 1 ≤ x i ∧ x i ≤ size i

theorem bounds_dvd {s p : ℤ} (c0 c : ℤ) (h : p ∣ s) :
    bounds s p c0 c = (c * (s / p) + 1, (c + 1) * (s / p)) := by
  simp [bounds, Int.emod_eq_zero_of_dvd h]

theorem bounds_low {s p c0 : ℤ} (c : ℤ) (h : ¬ p ∣ s) (hc : c0 < s % p) :
    bounds s p c0 c = (c * (s / p + 1) + 1, (c + 1) * (s / p + 1)) := by
  have : s % p ≠ 0 := fun h' => h (Int.dvd_of_emod_eq_zero h')
  simp [bounds, this, hc]

theorem bounds_high {s p c0 : ℤ} (c : ℤ) (h : ¬ p ∣ s) (hc : s % p ≤ c0) :
    bounds s p c0 c = (c * (s / p + 1) + 1 + s % p, (c + 1) * (s / p) + s % p) := by
  have : s % p ≠ 0 := fun h' => h (Int.dvd_of_emod_eq_zero h')
  simp [bounds, this, not_lt.2 hc]

/-- With sizes that are multiples of the numbers of processes the ranges are a partition. -/
theorem partition_partial (size procs : Fin 3 → ℤ) (hp : ∀ i, 0 < procs i) (hs : ∀ i, 0 < size i)
    (hd : ∀ i, procs i ∣ size i) : Partition size procs := by
  have hdn : ∀ i, 0 < size i / procs i := fun i =>
    Int.ediv_pos_of_pos_of_dvd (hs i) (hp i).le (hd i)
  have hmul : ∀ i, procs i * (size i / procs i) = size i := fun i => Int.mul_ediv_cancel' (hd i)
  constructor
  · intro x hx
    refine ⟨fun i => (x i - 1) / (size i / procs i), ⟨fun i => ⟨?_, ?_⟩, fun i => ?_⟩, ?_⟩
    · exact Int.ediv_nonneg (by have := hx i; omega) (hdn i).le
    · apply Int.ediv_lt_of_lt_mul (hdn i)
      rw [hmul]; have := hx i; omega
    · simp only [ends, bounds_dvd _ _ (hd i)]
      have h1 := Int.emod_nonneg (x i - 1) (hdn i).ne'
      have h2 := Int.emod_lt_of_pos (x i - 1) (hdn i)
      have h3 := Int.mul_ediv_add_emod (x i - 1) (size i / procs i)
      constructor <;> nlinarith
    · rintro c ⟨-, hh⟩
      funext i
      have h := hh i
      simp only [ends, bounds_dvd _ _ (hd i)] at h
      symm
      rw [Int.ediv_eq_iff_of_pos (hdn i)]
      constructor <;> nlinarith
  · intro c x hc hh i
    have h := hh i
    simp only [ends, bounds_dvd _ _ (hd i)] at h
    have h0 := hc i
    constructor
    · nlinarith [hdn i]
    · calc x i ≤ (c i + 1) * (size i / procs i) := h.2
        _ ≤ procs i * (size i / procs i) := by
            apply mul_le_mul_of_nonneg_right _ (hdn i).le; omega
        _ = size i := hmul i

/-- With at least one cell for every process the ranges are a partition only for such sizes: otherwise
the cells from `rem * (dn + 1) + 1` on are missing along `x`, and along `y` and `z` the last process
reaches past the end of the grid. -/
theorem partition_iff (size procs : Fin 3 → ℤ) (hp : ∀ i, 0 < procs i) (hs : ∀ i, procs i ≤ size i) :
    Partition size procs ↔ ∀ i, procs i ∣ size i := by
  refine ⟨fun H => ?_, partition_partial size procs hp fun i => (hp i).trans_le (hs i)⟩
  have hdn : ∀ i, 1 ≤ size i / procs i := fun i => by
    rw [Int.le_ediv_iff_mul_le (hp i)]; simpa using hs i
  have hrem : ∀ i, ¬ procs i ∣ size i → 0 < size i % procs i := fun i h =>
    lt_of_le_of_ne (Int.emod_nonneg _ (hp i).ne') fun h' => h (Int.dvd_of_emod_eq_zero h'.symm)
  by_cases h0 : procs 0 ∣ size 0
  · intro i
    by_contra hi
    let c : Fin 3 → ℤ := update 0 i (procs i - 1)
    have i0 : i ≠ 0 := fun h => hi (h ▸ h0)
    have c0 : c 0 = 0 := by simp [c, update_of_ne i0.symm]
    have cv : Valid procs c := by
      intro j
      by_cases hj : j = i
      · subst hj; simp only [c, update_self]; have := hp j; omega
      · simp only [c, update_of_ne hj]; exact ⟨le_rfl, hp j⟩
    have le : ∀ j, (ends size procs c j).1 ≤ (ends size procs c j).2 := by
      intro j
      unfold ends
      by_cases hj : procs j ∣ size j
      · rw [bounds_dvd _ _ hj]; dsimp only; nlinarith [hdn j]
      · rw [bounds_low _ hj (by rw [c0]; exact hrem j hj)]; dsimp only; nlinarith [hdn j]
    have := H.2 c (fun j => (ends size procs c j).2) cv (fun j => ⟨le j, le_rfl⟩) i
    have h2 : (ends size procs c i).2 = procs i * (size i / procs i + 1) := by
      unfold ends
      rw [bounds_low _ hi (by rw [c0]; exact hrem i hi)]
      simp [c]
    have h3 := Int.mul_ediv_add_emod (size i) (procs i)
    have h4 := Int.emod_lt_of_pos (size i) (hp i)
    have h5 := this.2
    rw [h2] at h5
    linarith
  · exfalso
    have h3 := Int.mul_ediv_add_emod (size 0) (procs 0)
    have h4 := Int.emod_lt_of_pos (size 0) (hp 0)
    have h5 := hrem 0 h0
    have h6 := hdn 0
    let x : Fin 3 → ℤ := update 1 0 (size 0 % procs 0 * (size 0 / procs 0 + 1) + 1)
    have hx : ∀ i, 1 ≤ x i ∧ x i ≤ size i := by
      intro i
      by_cases hi : i = 0
      · subst hi
        simp only [x, update_self]
        constructor <;> nlinarith
      · simp only [x, update_of_ne hi, Pi.one_apply]
        have := hp i; have := hs i; omega
    obtain ⟨c, ⟨hc, hh⟩, -⟩ := H.1 x hx
    have h7 := hh 0
    have hc0 := hc 0
    unfold ends at h7
    simp only [x, update_self] at h7
    by_cases hlt : c 0 < size 0 % procs 0
    · rw [bounds_low _ h0 hlt] at h7
      dsimp only at h7
      have : (c 0 + 1) * (size 0 / procs 0 + 1) ≤ size 0 % procs 0 * (size 0 / procs 0 + 1) :=
        mul_le_mul_of_nonneg_right (by omega) (by omega)
      omega
    · rw [bounds_high _ h0 (not_lt.1 hlt)] at h7
      dsimp only at h7
      have : size 0 % procs 0 * (size 0 / procs 0 + 1) ≤ c 0 * (size 0 / procs 0 + 1) :=
        mul_le_mul_of_nonneg_right (by omega) (by omega)
      omega

/-- Ten cells on four processes along `x`: no process holds the cell 7, and the last process
asks for an array of −1 numbers. -/
theorem partition_fails : ¬ Partition ![10, 4, 4] ![4, 1, 1] ∧
    (∀ c, Valid ![4, 1, 1] c → ¬ Holds ![10, 4, 4] ![4, 1, 1] c ![7, 1, 1]) ∧
    mySize ![10, 4, 4] ![4, 1, 1] ![3, 0, 0] 0 = -1 := by
  refine ⟨?_, ?_, ?_⟩
  · rw [partition_iff _ _ (by intro i; fin_cases i <;> norm_num) (by intro i; fin_cases i <;> norm_num)]
    intro h
    have := h 0
    norm_num at this
  · intro c hc hh
    have h := hh 0
    have h0 := hc 0
    simp only [Matrix.cons_val_zero] at h0
    unfold ends bounds at h
    simp only [Matrix.cons_val_zero] at h
    norm_num at h
    split_ifs at h <;> dsimp only at h <;> omega
  · simp [mySize, ends, bounds]

/-- The process `c` at or above the remainder gets `dn - c` cells along `x` instead of `dn`. -/
theorem size_high_fails (size procs c : Fin 3 → ℤ) (h : ¬ procs 0 ∣ size 0)
    (hc : size 0 % procs 0 ≤ c 0) : mySize size procs c 0 = size 0 / procs 0 - c 0 := by
  unfold mySize ends
  rw [bounds_high _ h hc]
  ring

/-- When the sizes are multiples, the neighbour above begins where the process ends: the electric field
received is the one of the next plane of the grid, taken round at the end. -/
theorem neighbour_adjacent_partial (size procs c : Fin 3 → ℤ) (hc : Valid procs c)
    (i : Fin 3) (hd : procs i ∣ size i) :
    (c i = procs i - 1 → (ends size procs c i).2 = size i ∧ (ends size procs (eRecv procs c i) i).1 = 1) ∧
    (c i ≠ procs i - 1 → (ends size procs (eRecv procs c i) i).1 = (ends size procs c i).2 + 1) := by
  have h := hc i
  unfold ends
  rw [bounds_dvd _ _ hd, bounds_dvd _ _ hd]
  simp only [eRecv, update_self]
  constructor
  · intro hh
    simp [up, hh, Int.mul_ediv_cancel' hd]
  · intro hh
    simp [up, hh]

/-! ### Search of a point -/

theorem search_succ (grid : List ℤ) (n : ℕ) (t : ℤ) :
    search grid (n + 1) t = (search grid n t).bind fun index =>
      (grid[n]?).map fun v : ℤ => if |(v : ℚ) - (t : ℚ)| < 1 / 10 then (n : ℤ) else index := by
  unfold search
  rw [List.range_succ, List.foldlM_append]
  simp only [List.foldlM_cons, List.foldlM_nil]
  cases List.foldlM (fun (index : ℤ) (j : ℕ) =>
    (grid[j]?).map fun v : ℤ => if |(v : ℚ) - (t : ℚ)| < 1 / 10 then (j : ℤ) else index) (-1)
      (List.range n) <;> simp

theorem near_iff (v t : ℤ) : |(v : ℚ) - (t : ℚ)| < 1 / 10 ↔ v = t := by
  constructor
  · intro h
    have h1 : ((|v - t| : ℤ) : ℚ) < 1 := by push_cast; linarith
    have h2 : |v - t| < 1 := by exact_mod_cast h1
    have h3 := Int.abs_lt_one_iff.1 h2
    omega
  · rintro rfl; norm_num

/-- The loop over the first `n` elements of an array of `m` consecutive numbers. -/
theorem search_consecutive (a : ℤ) (m n : ℕ) (hn : n ≤ m) (t : ℤ) :
    search ((List.range m).map fun j : ℕ => a + (j : ℤ)) n t =
      some (if a ≤ t ∧ t < a + n then t - a else -1) := by
  induction n with
  | zero => 
    rw [if_neg (by push_cast; omega)]; rfl
  | succ n ih =>
    rw [search_succ, ih (by omega)]
    have hget : ((List.range m).map fun j : ℕ => a + (j : ℤ))[n]? = some (a + n) := by
      simp [List.getElem?_range (show n < m by omega)]
    rw [hget]
    simp only [Option.bind_some, Option.map_some]
    rw [if_congr (near_iff (a + n) t) rfl rfl]
    congr 1
    push_cast
    split_ifs <;> omega

theorem search_past (a : ℤ) (m n : ℕ) (hn : m < n) (t : ℤ) :
    search ((List.range m).map fun j : ℕ => a + (j : ℤ)) n t = none := by
  obtain ⟨k, rfl⟩ : ∃ k, n = m + 1 + k := ⟨n - (m + 1), by omega⟩
  clear hn
  induction k with
  | zero =>
    rw [Nat.add_zero, search_succ, search_consecutive a m m le_rfl]
    simp
  | succ k ih => rw [← Nat.add_assoc, search_succ, ih]; rfl

/-- `findgrid_x` gives the place of the point in the array of the process, and −1 when the process does
not hold it. -/
theorem findX_eq (size procs c : Fin 3 → ℤ) (t : ℤ) :
    findX size procs c t = some (if (ends size procs c 0).1 ≤ t ∧ t ≤ (ends size procs c 0).2
      then t - (ends size procs c 0).1 else -1) := by
  unfold findX myGrid
  rw [search_consecutive _ _ _ le_rfl]
  congr 1
  unfold mySize
  generalize (ends size procs c 0).1 = a
  generalize (ends size procs c 0).2 = b
  split_ifs <;> omega

/-- `findgrid_y` does the same when the process has as many cells along `y` as along `x`. -/
theorem findY_partial (size procs c : Fin 3 → ℤ) (t : ℤ)
    (h : mySize size procs c 1 = mySize size procs c 0) :
    findY size procs c t = some (if (ends size procs c 1).1 ≤ t ∧ t ≤ (ends size procs c 1).2
      then t - (ends size procs c 1).1 else -1) := by
  unfold findY myGrid
  rw [← h, search_consecutive _ _ _ le_rfl]
  congr 1
  unfold mySize
  generalize (ends size procs c 1).1 = a
  generalize (ends size procs c 1).2 = b
  split_ifs <;> omega

/-- With more cells along `y` the points behind the first `mygrid_nx` are never found by any process that
holds them; with fewer the loop reads past the end of the array, for every point. -/
theorem findY_fails (size procs c : Fin 3 → ℤ) :
    (0 ≤ mySize size procs c 0 → ∀ t, (ends size procs c 1).1 + mySize size procs c 0 ≤ t →
      t ≤ (ends size procs c 1).2 → findY size procs c t = some (-1)) ∧
    (0 ≤ mySize size procs c 1 → mySize size procs c 1 < mySize size procs c 0 →
      ∀ t, findY size procs c t = none) := by
  constructor
  · intro h0 t h1 h2
    unfold findY myGrid
    have : (mySize size procs c 0).toNat ≤ (mySize size procs c 1).toNat := by
      have : mySize size procs c 1 = (ends size procs c 1).2 - (ends size procs c 1).1 + 1 := rfl
      omega
    rw [search_consecutive _ _ _ this]
    congr 1
    rw [if_neg]
    omega
  · intro h0 h1 t
    unfold findY myGrid
    exact search_past _ _ _ (by omega) t

/-- On one process the place found is one below the index that the code without `MPION` uses for the same
position. -/
theorem findX_serial_fails (size : Fin 3 → ℤ) (x center lattice : ℚ)
    (h : 1 ≤ target x center lattice ∧ target x center lattice ≤ size 0) :
    findX size 1 0 (target x center lattice) = some (target x center lattice - 1) := by
  rw [findX_eq]
  have : ends size 1 0 0 = (1, size 0) := by
    unfold ends
    rw [bounds_dvd _ _ (by simp)]
    simp
  rw [this, if_pos h]

theorem source_column (size procs : Fin 3 → ℤ) (hp : ∀ i, 0 < procs i)
    (hd : ∀ i, procs i ∣ size i) (hs : ∀ i, 0 < size i)
    (hxy : size 1 / procs 1 = size 0 / procs 0) (tx ty : ℤ)
    (hx : 1 ≤ tx ∧ tx ≤ size 0) (hy : 1 ≤ ty ∧ ty ≤ size 1) :
    ∃ cx cy, (0 ≤ cx ∧ cx < procs 0) ∧ (0 ≤ cy ∧ cy < procs 1) ∧
      (cx * (size 0 / procs 0) + 1 ≤ tx ∧ tx ≤ (cx + 1) * (size 0 / procs 0)) ∧
      (cy * (size 1 / procs 1) + 1 ≤ ty ∧ ty ≤ (cy + 1) * (size 1 / procs 1)) ∧
      ∀ c, Valid procs c → (adds size procs c tx ty = some true ↔ c 0 = cx ∧ c 1 = cy) := by
  have H := partition_partial size procs hp hs hd
  let x : Fin 3 → ℤ := ![tx, ty, 1]
  have hin : ∀ i, 1 ≤ x i ∧ x i ≤ size i := by
    intro i; fin_cases i
    · exact hx
    · exact hy
    · have := hs 2; simp [x]; omega
  obtain ⟨c, ⟨hc, hh⟩, huni⟩ := H.1 x hin
  refine ⟨c 0, c 1, hc 0, hc 1, ?_, ?_, fun b hb => ?_⟩
  · have := hh 0
    rw [show ends size procs c 0 = _ from bounds_dvd _ _ (hd 0)] at this
    exact this
  · have := hh 1
    rw [show ends size procs c 1 = _ from bounds_dvd _ _ (hd 1)] at this
    exact this
  have hsize : ∀ b : Fin 3 → ℤ, ∀ i, mySize size procs b i = size i / procs i := by
    intro b i
    unfold mySize ends
    rw [bounds_dvd _ _ (hd i)]
    ring
  have hadd : adds size procs b tx ty = some true ↔
      ((ends size procs b 0).1 ≤ tx ∧ tx ≤ (ends size procs b 0).2) ∧
      ((ends size procs b 1).1 ≤ ty ∧ ty ≤ (ends size procs b 1).2) := by
    unfold adds
    rw [findX_eq, findY_partial _ _ _ _ (by rw [hsize, hsize, hxy])]
    simp only [Option.bind_some, Option.map_some, Option.some.injEq, Bool.not_eq_true',
      Bool.or_eq_false_iff, beq_eq_false_iff_ne]
    generalize (ends size procs b 0).1 = a0
    generalize (ends size procs b 0).2 = b0
    generalize (ends size procs b 1).1 = a1
    generalize (ends size procs b 1).2 = b1
    constructor
    · rintro ⟨h1, h2⟩
      split_ifs at h1 h2 with h3 h4 <;> first | exact ⟨h3, h4⟩ | omega
    · rintro ⟨h1, h2⟩
      rw [if_pos h1, if_pos h2]
      omega
  have e0 : ∀ b : Fin 3 → ℤ, ∀ i, ends size procs b i = (b i * (size i / procs i) + 1, (b i + 1) * (size i / procs i)) :=
    fun b i => bounds_dvd _ _ (hd i)
  rw [hadd]
  constructor
  · rintro ⟨h1, h2⟩
    have : (![b 0, b 1, c 2] : Fin 3 → ℤ) = c := by
      apply huni
      refine ⟨fun i => ?_, fun i => ?_⟩
      · fin_cases i
        · exact hb 0
        · exact hb 1
        · exact hc 2
      · rw [e0]
        fin_cases i
        · rw [e0] at h1; exact h1
        · rw [e0] at h2; exact h2
        · have := hh 2; rw [e0] at this; exact this
    exact ⟨congrFun this 0, congrFun this 1⟩
  · rintro ⟨h1, h2⟩
    have g0 := hh 0
    have g1 := hh 1
    rw [e0] at g0 g1 ⊢
    rw [e0, h1, h2]
    exact ⟨g0, g1⟩

theorem target_near (x center lattice : ℚ) : |(target x center lattice : ℚ) - (x + center) * lattice| ≤ 1 / 2 := by
  unfold target
  have h1 := Int.floor_le (1 / 2 + (x + center) * lattice)
  have h2 := Int.lt_floor_add_one (1 / 2 + (x + center) * lattice)
  rw [abs_le]
  constructor <;> linarith

theorem target_in (x center lattice : ℚ) (n : ℤ) (h : 1 ≤ (x + center) * lattice ∧ (x + center) * lattice ≤ n) :
    1 ≤ target x center lattice ∧ target x center lattice ≤ n := by
  unfold target
  refine ⟨Int.le_floor.2 (by push_cast; linarith), ?_⟩
  rw [← Int.lt_add_one_iff, Int.floor_lt]
  push_cast
  linarith

/-- **C155**: when the sizes are multiples and the processes hold as many cells along `y` as along `x`, the
processes that add a dipole source are those of one column, the one that holds the
point nearest to the source: one process when there is one process along
`z`. -/
theorem source_column_partial (size procs : Fin 3 → ℤ) (hp : ∀ i, 0 < procs i)
    (hd : ∀ i, procs i ∣ size i) (hs : ∀ i, 0 < size i)
    (hxy : size 1 / procs 1 = size 0 / procs 0) (x y xcenter ycenter lx ly : ℚ)
    (hx : 1 ≤ (x + xcenter) * lx ∧ (x + xcenter) * lx ≤ size 0)
    (hy : 1 ≤ (y + ycenter) * ly ∧ (y + ycenter) * ly ≤ size 1) :
    ∃ tx ty cx cy : ℤ, |(tx : ℚ) - (x + xcenter) * lx| ≤ 1 / 2 ∧ |(ty : ℚ) - (y + ycenter) * ly| ≤ 1 / 2 ∧
      (0 ≤ cx ∧ cx < procs 0) ∧ (0 ≤ cy ∧ cy < procs 1) ∧
      (cx * (size 0 / procs 0) + 1 ≤ tx ∧ tx ≤ (cx + 1) * (size 0 / procs 0)) ∧
      (cy * (size 1 / procs 1) + 1 ≤ ty ∧ ty ≤ (cy + 1) * (size 1 / procs 1)) ∧
      ∀ c, Valid procs c → (adds size procs c (target x xcenter lx) (target y ycenter ly) = some true ↔
        c 0 = cx ∧ c 1 = cy) := by
  obtain ⟨cx, cy, h⟩ := source_column size procs hp hd hs hxy _ _ (target_in x xcenter lx _ hx) (target_in y ycenter ly _ hy)
  exact ⟨_, _, cx, cy, target_near x xcenter lx, target_near y ycenter ly, h⟩

/-- With two or more processes along `z` the source is added more than once, whatever its height: the
search does not look at `z`. -/
theorem source_repeated_fails (size procs : Fin 3 → ℤ) (hp : ∀ i, 0 < procs i)
    (hd : ∀ i, procs i ∣ size i) (hs : ∀ i, 0 < size i)
    (hxy : size 1 / procs 1 = size 0 / procs 0) (hz : 1 < procs 2) (tx ty : ℤ)
    (hx : 1 ≤ tx ∧ tx ≤ size 0) (hy : 1 ≤ ty ∧ ty ≤ size 1) :
    ∃ b c, Valid procs b ∧ Valid procs c ∧ b ≠ c ∧ adds size procs b tx ty = some true ∧
      adds size procs c tx ty = some true := by
  obtain ⟨cx, cy, h0, h1, -, -, H⟩ := source_column size procs hp hd hs hxy tx ty hx hy
  have hv : ∀ z, 0 ≤ z ∧ z < procs 2 → Valid procs ![cx, cy, z] := by
    intro z hz i
    fin_cases i
    · exact h0
    · exact h1
    · exact hz
  refine ⟨![cx, cy, 0], ![cx, cy, 1], hv 0 (by omega), hv 1 (by omega), ?_, ?_, ?_⟩
  · intro h
    have := congrFun h 2
    simp at this
  · exact (H _ (hv 0 (by omega))).2 ⟨rfl, rfl⟩
  · exact (H _ (hv 1 (by omega))).2 ⟨rfl, rfl⟩

/-! ### Examples -/

/-- Eight cells on two processes along every direction. -/
example : (∀ i : Fin 3, (0 : ℤ) < (![2, 2, 2] : Fin 3 → ℤ) i) ∧
    (∀ i : Fin 3, (![2, 2, 2] : Fin 3 → ℤ) i ∣ (![8, 8, 8] : Fin 3 → ℤ) i) ∧
    Valid ![2, 2, 2] ![1, 0, 1] ∧ ends ![8, 8, 8] ![2, 2, 2] ![1, 0, 1] 0 = (5, 8) ∧
    eRecv ![2, 2, 2] ![1, 0, 1] 0 = ![0, 0, 1] := by
  refine ⟨by intro i; fin_cases i <;> norm_num, by intro i; fin_cases i <;> norm_num,
    by intro i; fin_cases i <;> norm_num, by simp [ends, bounds], ?_⟩
  funext i
  fin_cases i <;> simp [eRecv, up]

/-- A process with two cells along `x` and four along `y`: the third is not found. -/
example : findY ![2, 4, 1] ![1, 1, 1] ![0, 0, 0] 3 = some (-1) :=
  (findY_fails _ _ _).1 (by simp [mySize, ends, bounds]) 3 (by simp [mySize, ends, bounds])
    (by simp [ends, bounds])

end OpenMS.MpiGrid
