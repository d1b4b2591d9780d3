import Verif.Model.FdtdEnergy
import Verif.Props.Fdtd

/-!
# C159: losses and energies of the Maxwell solver

The loss reported by the solver is the flux of energy through a closed surface, so it has to be the sum
of what flows out of the cells inside.  `Poynting_total` satisfies this exactly when the absorbing layers
at both ends along `y` have the same width and `lattice_z` is a multiple of five: otherwise the upper
plane along `y` is another one, or the sides miss the lowest layer.  `Poynting_block` never does: a
flux without sources gives a loss.  The two ways of computing the vertical loss differ by the flux
through two layers of the sides.  Energies of neighbouring blocks count the common layer twice.
-/

set_option linter.unusedSectionVars false

namespace OpenMS.FdtdEnergy

open OpenMS.Fdtd (Ix irange mem_irange)
open OpenMS.FdtdGrid (trunc)
open Finset

/-! ### Loops as sums -/

theorem trunc_of_nonneg {q : ℚ} (h : 0 ≤ q) : trunc q = ⌊q⌋ := if_pos h

theorem trunc_int' (z : ℤ) : trunc (z : ℚ) = z := by
  unfold trunc
  split_ifs
  · exact Int.floor_intCast z
  · exact Int.ceil_intCast z

theorem irange_nodup (a b : ℤ) : (irange a b).Nodup := by
  unfold irange
  exact List.nodup_range.map fun x y h => by simpa using h

theorem irange_sum {M : Type*} [AddCommMonoid M] (a b : ℤ) (f : ℤ → M) :
    ((irange a b).map f).sum = ∑ x ∈ Ico a b, f x := by
  rw [← List.sum_toFinset f (irange_nodup a b)]
  refine sum_congr ?_ fun _ _ => rfl
  ext x
  rw [List.mem_toFinset, mem_irange, mem_Ico]

theorem upTo_sum {M : Type*} [AddCommMonoid M] (a b : ℚ) (f : ℤ → M) :
    ((upTo a b).map f).sum = ∑ x ∈ Icc (trunc a) ⌊b⌋, f x := by
  rw [upTo, irange_sum]
  refine sum_congr ?_ fun _ _ => rfl
  ext x
  rw [mem_Ico, mem_Icc, Int.lt_add_one_iff]

theorem downTo_sum {M : Type*} [AddCommMonoid M] (a b : ℚ) (f : ℤ → M) :
    ((downTo a b).map f).sum = ∑ x ∈ Icc ⌈b⌉ (trunc a), f x := by
  rw [downTo, List.map_reverse, List.sum_reverse, irange_sum]
  refine sum_congr ?_ fun _ _ => rfl
  ext x
  rw [mem_Ico, mem_Icc, Int.lt_add_one_iff]

/-- The differences of neighbours add up to the difference of the ends. -/
theorem telescope {M : Type*} [AddCommGroup M] (f : ℤ → M) (a b : ℤ) (h : a ≤ b) :
    ∑ x ∈ Ioc a b, (f x - f (x - 1)) = f b - f a := by
  induction b, h using Int.leInduction with
  | base => simp
  | succ n hn ih =>
    have : Ioc a (n + 1) = insert (n + 1) (Ioc a n) := by
      ext x
      simp only [mem_Ioc, mem_insert]
      omega
    rw [this, sum_insert (by simp), ih, add_sub_cancel_right]
    abel

section

variable {K : Type*} [Field K]

/-- What flows out of a cell: the differences of the flux through its opposite sides. -/
def outflow (G : Grid K) (S : Flux K) : Ix → K := fun (i, j, k) =>
  G.ds_y * G.ds_nz k * (S.x (i, j, k) - S.x (i - 1, j, k)) +
  G.ds_nz k * G.ds_x * (S.y (i, j, k) - S.y (i, j - 1, k)) +
  G.ds_x * G.ds_y * (S.z (i, j, k) - S.z (i, j, k - 1))

/-- The flux out of the cells behind the planes `x0`, `y0`, `z0` and up to the planes `x1`, `y1`, `z1`. -/
noncomputable def outflowBox (G : Grid K) (S : Flux K) (x0 x1 y0 y1 z0 z1 : ℤ) : K :=
  ∑ i ∈ Ioc x0 x1, ∑ j ∈ Ioc y0 y1, ∑ k ∈ Ioc z0 z1, outflow G S (i, j, k)

/-- The flux out of a box is the flux through its six sides. -/
theorem gauss (G : Grid K) (S : Flux K) (x0 x1 y0 y1 z0 z1 : ℤ) (hx : x0 ≤ x1) (hy : y0 ≤ y1) (hz : z0 ≤ z1) :
    outflowBox G S x0 x1 y0 y1 z0 z1 =
      ∑ k ∈ Ioc z0 z1, ∑ j ∈ Ioc y0 y1, G.ds_y * G.ds_nz k * (S.x (x1, j, k) - S.x (x0, j, k)) +
      ∑ i ∈ Ioc x0 x1, ∑ k ∈ Ioc z0 z1, G.ds_nz k * G.ds_x * (S.y (i, y1, k) - S.y (i, y0, k)) +
      ∑ i ∈ Ioc x0 x1, ∑ j ∈ Ioc y0 y1, G.ds_x * G.ds_y * (S.z (i, j, z1) - S.z (i, j, z0)) := by
  unfold outflowBox outflow
  simp only [sum_add_distrib]
  congr 1
  · congr 1
    · have : ∀ (i j k : ℤ), G.ds_y * G.ds_nz k * (S.x (i, j, k) - S.x (i - 1, j, k)) =
        G.ds_y * G.ds_nz k * S.x (i, j, k) - G.ds_y * G.ds_nz k * S.x (i - 1, j, k) := fun i j k => by ring
      rw [sum_comm]
      simp_rw [sum_comm (s := Ioc x0 x1) (t := Ioc z0 z1)]
      rw [sum_comm]
      refine sum_congr rfl fun k _ => sum_congr rfl fun j _ => ?_
      rw [← mul_sum, telescope (fun i => S.x (i, j, k)) x0 x1 hx]
    · refine sum_congr rfl fun i _ => ?_
      rw [sum_comm]
      refine sum_congr rfl fun k _ => ?_
      rw [← mul_sum, telescope (fun j => S.y (i, j, k)) y0 y1 hy]
  · refine sum_congr rfl fun i _ => sum_congr rfl fun j _ => ?_
    rw [← mul_sum, telescope (fun k => S.z (i, j, k)) z0 z1 hz]

/-! ### The loops -/

/-- The region between the absorbing layers is not empty and starts inside the grid. -/
structure Grid.Fits (G : Grid K) : Prop where
  x0 : 0 ≤ lo G.pmlil G.lattice_x
  x1 : lo G.pmlil G.lattice_x + 1 ≤ hi G.isize G.pmlir G.lattice_x
  y0 : 0 ≤ lo G.pmljl G.lattice_y
  y1 : lo G.pmljl G.lattice_y + 1 ≤ hi G.jsize G.pmljr G.lattice_y
  z0 : 0 ≤ lo G.pmlkl G.lattice_z
  z1 : lo G.pmlkl G.lattice_z + 1 ≤ hi G.ksize G.pmlkr G.lattice_z

theorem Icc_succ (a b : ℤ) : Icc (a + 1) b = Ioc a b := by
  ext x
  rw [mem_Icc, mem_Ioc]
  omega

theorem up_sum {M : Type*} [AddCommMonoid M] {a b : ℚ} (h : 0 ≤ a) (f : ℤ → M) :
    ((upTo (1 + a) b).map f).sum = ∑ x ∈ Ioc ⌊a⌋ ⌊b⌋, f x := by
  rw [upTo_sum, trunc_of_nonneg (by linarith), add_comm, Int.floor_add_one, Icc_succ]

/-- The lower end of the loop along `z` for a multiple of five. -/
theorem ceil_lo {pml l : ℤ} (h : 5 ∣ l) : ⌈1 + lo pml l⌉ = ⌊lo pml l⌋ + 1 := by
  obtain ⟨m, rfl⟩ := h
  have : lo pml (5 * m) = ((pml + m : ℤ) : ℚ) := by
    unfold lo
    push_cast
    ring
  rw [this, Int.floor_intCast, show (1 : ℚ) + ((pml + m : ℤ) : ℚ) = ((pml + m + 1 : ℤ) : ℚ) by push_cast; ring,
    Int.ceil_intCast]

/-- And for the other numbers: one layer further. -/
theorem ceil_lo' {pml l : ℤ} (h : ¬5 ∣ l) : ⌈1 + lo pml l⌉ = ⌊lo pml l⌋ + 2 := by
  rw [add_comm, Int.ceil_add_one]
  have h1 : ⌈lo pml l⌉ = ⌊lo pml l⌋ + 1 := by
    rw [Int.ceil_eq_iff]
    push_cast
    refine ⟨?_, (Int.lt_floor_add_one _).le⟩
    rw [add_sub_cancel_right]
    refine lt_of_le_of_ne (Int.floor_le _) fun he => h ?_
    unfold lo at he
    refine ⟨⌊(pml : ℚ) + 1 / 5 * l⌋ - pml, ?_⟩
    have : (l : ℚ) = 5 * ((⌊(pml : ℚ) + 1 / 5 * l⌋ : ℚ) - pml) := by rw [he]; ring
    exact_mod_cast this
  rw [h1]
  ring

theorem sideX_eq (G : Grid K) (hG : G.Fits) (S : Flux K) (l : List ℤ) (s : Finset ℤ)
    (hl : ∀ f : ℤ → K, (l.map f).sum = ∑ x ∈ s, f x) :
    sideX G S l = ∑ k ∈ s, ∑ j ∈ Ioc ⌊lo G.pmljl G.lattice_y⌋ ⌊hi G.jsize G.pmljr G.lattice_y⌋,
      G.ds_y * G.ds_nz k * (S.x (⌊hi G.isize G.pmlir G.lattice_x⌋, j, k) - S.x (⌊lo G.pmlil G.lattice_x⌋, j, k)) := by
  unfold sideX sum2
  rw [hl, hl, ← sum_sub_distrib, trunc_of_nonneg hG.x0, trunc_of_nonneg (by have := hG.x0; have := hG.x1; linarith)]
  refine sum_congr rfl fun k _ => ?_
  rw [Grid.js, up_sum hG.y0, up_sum hG.y0, ← sum_sub_distrib]
  exact sum_congr rfl fun j _ => by ring

theorem sideY_eq (G : Grid K) (hG : G.Fits) (S : Flux K) (p : ℤ) (l : List ℤ) (s : Finset ℤ)
    (hl : ∀ f : ℤ → K, (l.map f).sum = ∑ x ∈ s, f x) :
    sideY G S p l = ∑ i ∈ Ioc ⌊lo G.pmlil G.lattice_x⌋ ⌊hi G.isize G.pmlir G.lattice_x⌋, ∑ k ∈ s,
      G.ds_nz k * G.ds_x * (S.y (i, trunc (hi G.jsize p G.lattice_y), k) - S.y (i, ⌊lo G.pmljl G.lattice_y⌋, k)) := by
  unfold sideY sum2
  rw [Grid.is, up_sum hG.x0, up_sum hG.x0, ← sum_sub_distrib, trunc_of_nonneg hG.y0]
  refine sum_congr rfl fun i _ => ?_
  rw [hl, hl, ← sum_sub_distrib]
  exact sum_congr rfl fun j _ => by ring

theorem planeZ_eq (G : Grid K) (hG : G.Fits) (S : Flux K) (k : ℤ) :
    planeZ G S k = ∑ i ∈ Ioc ⌊lo G.pmlil G.lattice_x⌋ ⌊hi G.isize G.pmlir G.lattice_x⌋,
      ∑ j ∈ Ioc ⌊lo G.pmljl G.lattice_y⌋ ⌊hi G.jsize G.pmljr G.lattice_y⌋, G.ds_x * G.ds_y * S.z (i, j, k) := by
  unfold planeZ sum2
  rw [Grid.is, up_sum hG.x0]
  refine sum_congr rfl fun i _ => ?_
  rw [Grid.js, up_sum hG.y0]

/-- What `Poynting_total` has to compute: the flux out of the region between the absorbing layers. -/
noncomputable def expected (G : Grid K) (S : Flux K) : K :=
  outflowBox G S ⌊lo G.pmlil G.lattice_x⌋ ⌊hi G.isize G.pmlir G.lattice_x⌋ ⌊lo G.pmljl G.lattice_y⌋
    ⌊hi G.jsize G.pmljr G.lattice_y⌋ ⌊lo G.pmlkl G.lattice_z⌋ ⌊hi G.ksize G.pmlkr G.lattice_z⌋

theorem floors (G : Grid K) (hG : G.Fits) :
    ⌊lo G.pmlil G.lattice_x⌋ + 1 ≤ ⌊hi G.isize G.pmlir G.lattice_x⌋ ∧
    ⌊lo G.pmljl G.lattice_y⌋ + 1 ≤ ⌊hi G.jsize G.pmljr G.lattice_y⌋ ∧
    ⌊lo G.pmlkl G.lattice_z⌋ + 1 ≤ ⌊hi G.ksize G.pmlkr G.lattice_z⌋ := by
  rw [← Int.floor_add_one, ← Int.floor_add_one, ← Int.floor_add_one]
  exact ⟨Int.floor_le_floor hG.x1, Int.floor_le_floor hG.y1, Int.floor_le_floor hG.z1⟩

/-- The loss of `Poynting_total` in terms of the sides that it uses. -/
theorem total_eq (G : Grid K) (hG : G.Fits) (S : Flux K) :
    (poyntingTotal G S).1 + (poyntingTotal G S).2.1 + (poyntingTotal G S).2.2 =
      ∑ k ∈ Icc ⌈1 + lo G.pmlkl G.lattice_z⌉ ⌊hi G.ksize G.pmlkr G.lattice_z⌋,
        ∑ j ∈ Ioc ⌊lo G.pmljl G.lattice_y⌋ ⌊hi G.jsize G.pmljr G.lattice_y⌋,
          G.ds_y * G.ds_nz k * (S.x (⌊hi G.isize G.pmlir G.lattice_x⌋, j, k) - S.x (⌊lo G.pmlil G.lattice_x⌋, j, k)) +
      ∑ i ∈ Ioc ⌊lo G.pmlil G.lattice_x⌋ ⌊hi G.isize G.pmlir G.lattice_x⌋,
        ∑ k ∈ Icc ⌈1 + lo G.pmlkl G.lattice_z⌉ ⌊hi G.ksize G.pmlkr G.lattice_z⌋,
          G.ds_nz k * G.ds_x * (S.y (i, trunc (hi G.jsize G.pmljl G.lattice_y), k) - S.y (i, ⌊lo G.pmljl G.lattice_y⌋, k)) +
      ∑ i ∈ Ioc ⌊lo G.pmlil G.lattice_x⌋ ⌊hi G.isize G.pmlir G.lattice_x⌋,
        ∑ j ∈ Ioc ⌊lo G.pmljl G.lattice_y⌋ ⌊hi G.jsize G.pmljr G.lattice_y⌋,
          G.ds_x * G.ds_y * (S.z (i, j, ⌊hi G.ksize G.pmlkr G.lattice_z⌋) - S.z (i, j, ⌊lo G.pmlkl G.lattice_z⌋)) := by
  have hz : 0 ≤ hi G.ksize G.pmlkr G.lattice_z := by have := hG.z0; have := hG.z1; linarith
  unfold poyntingTotal
  dsimp only
  have hk : ∀ f : ℤ → K, (G.ks.map f).sum =
      ∑ x ∈ Icc ⌈1 + lo G.pmlkl G.lattice_z⌉ ⌊hi G.ksize G.pmlkr G.lattice_z⌋, f x := fun f => by
    rw [Grid.ks, downTo_sum, trunc_of_nonneg hz]
  rw [sideX_eq G hG S _ _ hk, sideY_eq G hG S _ _ _ hk, planeZ_eq G hG, planeZ_eq G hG, trunc_of_nonneg hz,
    trunc_of_nonneg hG.z0, ← sum_sub_distrib]
  congr 1
  refine sum_congr rfl fun i _ => ?_
  rw [← sum_sub_distrib]
  exact sum_congr rfl fun j _ => by ring

/-- **C159**: with layers of the same width at both ends along `y` and `lattice_z` a multiple of five the
loss of `Poynting_total` is the flux out of the region, for every flux. -/
theorem total_partial (G : Grid K) (hG : G.Fits) (h5 : 5 ∣ G.lattice_z) (hy : G.pmljl = G.pmljr) (S : Flux K) :
    (poyntingTotal G S).1 + (poyntingTotal G S).2.1 + (poyntingTotal G S).2.2 = expected G S := by
  obtain ⟨fx, fy, fz⟩ := floors G hG
  rw [total_eq G hG, ceil_lo h5, Icc_succ, expected, gauss G S _ _ _ _ _ _ (by omega) (by omega) (by omega),
    show hi G.jsize G.pmljl G.lattice_y = hi G.jsize G.pmljr G.lattice_y by rw [hy],
    trunc_of_nonneg (by have := hG.y0; have := hG.y1; linarith)]

variable [LinearOrder K] [IsStrictOrderedRing K]

theorem sum_area_pos {s t : Finset ℤ} {f : ℤ → ℤ → K} (hs : s.Nonempty) (ht : t.Nonempty)
    (hf : ∀ i ∈ s, ∀ j ∈ t, 0 < f i j) : 0 < ∑ i ∈ s, ∑ j ∈ t, f i j :=
  sum_pos (fun i hi => sum_pos (fun j hj => hf i hi j hj) ht) hs

/-- A flux along `y` through one plane. -/
def sheetY (y : ℤ) : Flux K := ⟨fun _ => 0, fun c => if c.2.1 = y then 1 else 0, fun _ => 0⟩

/-- A flux along `x` in one layer of one plane. -/
def sheetX (x z : ℤ) : Flux K := ⟨fun c => if c.1 = x ∧ c.2.2 = z then 1 else 0, fun _ => 0, fun _ => 0⟩

/-- **C159**, violation: with layers of different widths along `y`, energy leaving through the upper plane is
not counted. -/
theorem width_fails (G : Grid K) (hG : G.Fits) (hy : G.pmljl ≠ G.pmljr)
    (hy' : 0 ≤ hi G.jsize G.pmljl G.lattice_y) (d1 : 0 < G.ds_x) (d3 : ∀ k, 0 < G.ds_nz k) :
    let S := sheetY ⌊hi G.jsize G.pmljr G.lattice_y⌋
    (poyntingTotal G S).1 + (poyntingTotal G S).2.1 + (poyntingTotal G S).2.2 = (0 : K) ∧ 0 < expected G S := by
  intro S
  obtain ⟨fx, fy, fz⟩ := floors G hG
  have hne : ⌊hi G.jsize G.pmljl G.lattice_y⌋ ≠ ⌊hi G.jsize G.pmljr G.lattice_y⌋ := fun h => hy (by
    have e : hi G.jsize G.pmljl G.lattice_y = hi G.jsize G.pmljr G.lattice_y + ((G.pmljr - G.pmljl : ℤ) : ℚ) := by
      unfold hi
      push_cast
      ring
    rw [e, Int.floor_add_intCast] at h
    omega)
  constructor
  · rw [total_eq G hG, trunc_of_nonneg hy']
    simp only [S, sheetY, if_neg hne, if_neg (show ¬⌊lo G.pmljl G.lattice_y⌋ = ⌊hi G.jsize G.pmljr G.lattice_y⌋ by omega),
      sub_self, mul_zero, sum_const_zero, add_zero]
  · rw [expected, gauss G S _ _ _ _ _ _ (by omega) (by omega) (by omega)]
    simp only [S, sheetY, if_neg (show ¬⌊lo G.pmljl G.lattice_y⌋ = ⌊hi G.jsize G.pmljr G.lattice_y⌋ by omega), if_true,
      sub_self, sub_zero, mul_zero, sum_const_zero, add_zero, zero_add, mul_one]
    exact sum_area_pos ⟨_, mem_Ioc.2 ⟨by omega, le_rfl⟩⟩ ⟨_, mem_Ioc.2 ⟨by omega, le_rfl⟩⟩ fun i _ k _ =>
      mul_pos (d3 k) d1

/-- **C159**, violation: when `lattice_z` is not a multiple of five, energy leaving through the sides in the lowest
layer is not counted. -/
theorem layer_fails (G : Grid K) (hG : G.Fits) (h5 : ¬5 ∣ G.lattice_z) (d2 : 0 < G.ds_y) (d3 : ∀ k, 0 < G.ds_nz k) :
    let S := sheetX ⌊hi G.isize G.pmlir G.lattice_x⌋ (⌊lo G.pmlkl G.lattice_z⌋ + 1)
    (poyntingTotal G S).1 + (poyntingTotal G S).2.1 + (poyntingTotal G S).2.2 = (0 : K) ∧ 0 < expected G S := by
  intro S
  obtain ⟨fx, fy, fz⟩ := floors G hG
  have e0 : ∀ j k, S.x (⌊lo G.pmlil G.lattice_x⌋, j, k) = 0 := fun j k => if_neg (by dsimp only; omega)
  constructor
  · rw [total_eq G hG, ceil_lo' h5]
    have h1 : ∀ k ∈ Icc (⌊lo G.pmlkl G.lattice_z⌋ + 2) ⌊hi G.ksize G.pmlkr G.lattice_z⌋, ∀ j,
        S.x (⌊hi G.isize G.pmlir G.lattice_x⌋, j, k) = 0 := fun k hk j => if_neg (by
      rw [mem_Icc] at hk
      dsimp only
      omega)
    rw [sum_eq_zero fun k hk => sum_eq_zero fun j _ => by rw [h1 k hk, e0, sub_zero, mul_zero]]
    simp [S, sheetX]
  · rw [expected, gauss G S _ _ _ _ _ _ (by omega) (by omega) (by omega)]
    have r : ∀ i j, S.z (i, j, ⌊hi G.ksize G.pmlkr G.lattice_z⌋) - S.z (i, j, ⌊lo G.pmlkl G.lattice_z⌋) = 0 :=
      fun i j => sub_zero _
    have r' : ∀ i k, S.y (i, ⌊hi G.jsize G.pmljr G.lattice_y⌋, k) - S.y (i, ⌊lo G.pmljl G.lattice_y⌋, k) = 0 :=
      fun i k => sub_zero _
    simp only [r, r', mul_zero, sum_const_zero, add_zero, e0, sub_zero]
    refine sum_pos' (fun k _ => sum_nonneg fun j _ => mul_nonneg (mul_pos d2 (d3 k)).le ?_)
      ⟨⌊lo G.pmlkl G.lattice_z⌋ + 1, mem_Ioc.2 ⟨by omega, fz⟩, sum_pos (fun j _ => ?_) ⟨_, mem_Ioc.2 ⟨by omega, le_rfl⟩⟩⟩
    · simp only [S, sheetX]
      split_ifs <;> norm_num
    · rw [show S.x (⌊hi G.isize G.pmlir G.lattice_x⌋, j, ⌊lo G.pmlkl G.lattice_z⌋ + 1) = 1 from if_pos ⟨rfl, rfl⟩, mul_one]
      exact mul_pos d2 (d3 _)

/-! ### Vertical loss -/

/-- Flux through the four sides of one layer. -/
def layerFlux (G : Grid K) (S : Flux K) (k : ℤ) : K := sideX G S [k] + sideY G S G.pmljr [k]

theorem side_layers (G : Grid K) (hG : G.Fits) (S : Flux K) (l : List ℤ) (s : Finset ℤ)
    (hl : ∀ f : ℤ → K, (l.map f).sum = ∑ x ∈ s, f x) :
    sideX G S l + sideY G S G.pmljr l = ∑ k ∈ s, layerFlux G S k := by
  unfold layerFlux
  rw [sum_add_distrib, sideX_eq G hG S l s hl, sideY_eq G hG S _ l s hl, sum_comm (s := Ioc _ _) (t := s)]
  congr 1
  · refine sum_congr rfl fun k _ => ?_
    rw [sideX_eq G hG S [k] {k} (fun f => by simp), sum_singleton]
  · refine sum_congr rfl fun k _ => ?_
    rw [sideY_eq G hG S _ [k] {k} (fun f => by simp)]
    simp only [sum_singleton]

/-- **C159**: where `Poynting_total` is right, the sum of the upper and the lower loss exceeds the vertical loss by
the flux through the sides of the two layers that separate them. -/
theorem updown_excess (G : Grid K) (hG : G.Fits) (h5 : 5 ∣ G.lattice_z) (hy : G.pmljl = G.pmljr) (S : Flux K)
    (kl ku : ℤ) (h1 : ⌊lo G.pmlkl G.lattice_z⌋ < kl) (h2 : kl ≤ ku) (h3 : ku ≤ ⌊hi G.ksize G.pmlkr G.lattice_z⌋) :
    (poyntingUpDown G S kl ku).1 + (poyntingUpDown G S kl ku).2 =
      verticalLoss G S kl ku + layerFlux G S kl + layerFlux G S ku := by
  have hz : 0 ≤ hi G.ksize G.pmlkr G.lattice_z := by have := hG.z0; have := hG.z1; linarith
  have a := side_layers G hG S (downTo (hi G.ksize G.pmlkr G.lattice_z) ku) (Icc ku ⌊hi G.ksize G.pmlkr G.lattice_z⌋)
    fun f => by rw [downTo_sum, trunc_of_nonneg hz, Int.ceil_intCast]
  have b := side_layers G hG S (upTo (1 + lo G.pmlkl G.lattice_z) kl) (Ioc ⌊lo G.pmlkl G.lattice_z⌋ kl)
    fun f => by rw [up_sum hG.z0, Int.floor_intCast]
  have c := side_layers G hG S G.ks (Ioc ⌊lo G.pmlkl G.lattice_z⌋ ⌊hi G.ksize G.pmlkr G.lattice_z⌋)
    fun f => by rw [Grid.ks, downTo_sum, trunc_of_nonneg hz, ceil_lo h5, Icc_succ]
  have d := side_layers G hG S (downTo ku kl) (Icc kl ku) fun f => by
    rw [downTo_sum, trunc_int', Int.ceil_intCast]
  obtain ⟨F, hF⟩ : ∃ F, F = layerFlux G S := ⟨_, rfl⟩
  rw [← hF] at a b c d ⊢
  have u : ∑ k ∈ Icc ku ⌊hi G.ksize G.pmlkr G.lattice_z⌋, F k = ∑ k ∈ Ioc ku ⌊hi G.ksize G.pmlkr G.lattice_z⌋, F k + F ku := by
    rw [← sum_Ioc_add_eq_sum_Icc h3]
  have v : ∑ k ∈ Icc kl ku, F k = ∑ k ∈ Ioc kl ku, F k + F kl := by rw [← sum_Ioc_add_eq_sum_Icc h2]
  have w : ∑ k ∈ Ioc ⌊lo G.pmlkl G.lattice_z⌋ ⌊hi G.ksize G.pmlkr G.lattice_z⌋, F k =
      ∑ k ∈ Ioc ⌊lo G.pmlkl G.lattice_z⌋ kl, F k + ∑ k ∈ Ioc kl ku, F k +
        ∑ k ∈ Ioc ku ⌊hi G.ksize G.pmlkr G.lattice_z⌋, F k := by
    rw [← sum_union (by
      rw [disjoint_left]
      intro x hx
      rw [mem_Ioc] at hx ⊢
      omega), ← sum_union (by
      rw [disjoint_left]
      intro x hx
      rw [mem_union, mem_Ioc, mem_Ioc] at hx
      rw [mem_Ioc]
      omega)]
    refine sum_congr ?_ fun _ _ => rfl
    ext x
    simp only [mem_union, mem_Ioc]
    omega
  unfold poyntingUpDown verticalLoss poyntingTotal poyntingSide
  dsimp only
  rw [hy]
  linear_combination a + b - c + d + u + v - w

/-- **C159**, violation: so the two results differ for energy leaving through one of these layers. -/
theorem updown_fails (G : Grid K) (hG : G.Fits) (h5 : 5 ∣ G.lattice_z) (hy : G.pmljl = G.pmljr) (kl ku : ℤ)
    (h1 : ⌊lo G.pmlkl G.lattice_z⌋ < kl) (h2 : kl ≤ ku) (h3 : ku ≤ ⌊hi G.ksize G.pmlkr G.lattice_z⌋)
    (d2 : 0 < G.ds_y) (d3 : ∀ k, 0 < G.ds_nz k) :
    let S : Flux K := sheetX ⌊hi G.isize G.pmlir G.lattice_x⌋ ku
    verticalLoss G S kl ku < (poyntingUpDown G S kl ku).1 + (poyntingUpDown G S kl ku).2 := by
  intro S
  obtain ⟨fx, fy, fz⟩ := floors G hG
  have hL : ∀ k, layerFlux G S k = ∑ j ∈ Ioc ⌊lo G.pmljl G.lattice_y⌋ ⌊hi G.jsize G.pmljr G.lattice_y⌋,
      G.ds_y * G.ds_nz k * (if k = ku then 1 else 0) := fun k => by
    unfold layerFlux
    rw [sideX_eq G hG S [k] {k} (fun f => by simp), sideY_eq G hG S _ [k] {k} (fun f => by simp)]
    simp only [sum_singleton, S, sheetX, sub_self, mul_zero, sum_const_zero, add_zero,
      true_and, if_neg (show ¬(⌊lo G.pmlil G.lattice_x⌋ = ⌊hi G.isize G.pmlir G.lattice_x⌋ ∧ k = ku) by omega), sub_zero]
  have l0 : ∀ k, 0 ≤ layerFlux G S k := fun k => by
    rw [hL]
    refine sum_nonneg fun j _ => mul_nonneg (mul_pos d2 (d3 k)).le ?_
    split_ifs <;> norm_num
  have l1 : 0 < layerFlux G S ku := by
    rw [hL]
    refine sum_pos (fun j _ => ?_) ⟨_, mem_Ioc.2 ⟨by omega, le_rfl⟩⟩
    rw [if_pos rfl, mul_one]
    exact mul_pos d2 (d3 _)
  rw [updown_excess G hG h5 hy S kl ku h1 h2 h3]
  linarith [l0 kl]

/-! ### Blocks -/

/-- The flux around the line `(a, b)` parallel to `z`: it has no sources. -/
def eddy (G : Grid K) (a b : ℤ) : Flux K where
  x := fun (i, j, _) => ((if i = a ∧ j = b then 1 else 0) - if i = a ∧ j - 1 = b then 1 else 0) / G.ds_y
  y := fun (i, j, _) => -((if i = a ∧ j = b then 1 else 0) - if i - 1 = a ∧ j = b then 1 else 0) / G.ds_x
  z := fun _ => 0

theorem eddy_outflow (G : Grid K) (d1 : 0 < G.ds_x) (d2 : 0 < G.ds_y) (a b : ℤ) (c : Ix) :
    outflow G (eddy G a b) c = 0 := by
  obtain ⟨i, j, k⟩ := c
  simp only [outflow, eddy]
  have := d1.ne'
  have := d2.ne'
  field_simp
  ring

/-- **C159**, violation: a flux without sources in any cell of the grid gives a loss in `Poynting_block`, for every
block with at least two cells along `y`. -/
theorem block_fails (G : Grid K) (d1 : 0 < G.ds_x) (d2 : 0 < G.ds_y) (d3 : ∀ k, 0 < G.ds_nz k)
    (xn xp yn yp zn zp : ℤ) (hx : xn ≤ xp) (hy : yn < yp) (hz : zn ≤ zp) :
    (∀ c, outflow G (eddy G (xn - 1) yn) c = 0) ∧ poyntingBlock G (eddy G (xn - 1) yn) xn xp yn yp zn zp < 0 := by
  refine ⟨eddy_outflow G d1 d2 _ _, ?_⟩
  have hk : ∀ f : ℤ → K, ((downTo (zp : ℚ) (zn : ℚ)).map f).sum = ∑ x ∈ Icc zn zp, f x := fun f => by
    rw [downTo_sum, trunc_int', Int.ceil_intCast]
  have hi' : ∀ (a b : ℤ) (f : ℤ → K), ((upTo (a : ℚ) (b : ℚ)).map f).sum = ∑ x ∈ Icc a b, f x := fun a b f => by
    rw [upTo_sum, trunc_int', Int.floor_intCast]
  unfold poyntingBlock sum2
  simp only [hk, hi']
  have x1 : ∀ i j k, xn ≤ i → (eddy G (xn - 1) yn).x (i, j, k) = 0 := fun i j k h => by
    simp only [eddy]
    rw [if_neg (by omega), if_neg (by omega)]
    simp
  have y1 : ∀ i k, (eddy G (xn - 1) yn).y (i, yp, k) = 0 := fun i k => by
    simp only [eddy]
    rw [if_neg (by omega), if_neg (by omega)]
    simp
  have y0 : ∀ i k, (eddy G (xn - 1) yn).y (i, yn, k) =
      -((if i = xn - 1 then 1 else 0) - if i = xn then 1 else 0) / G.ds_x := fun i k => by
    simp only [eddy, and_true]
    congr 3
    exact if_congr (by omega) rfl rfl
  have z1 : ∀ c, (eddy G (xn - 1) yn).z c = 0 := fun _ => rfl
  have hs : ∑ i ∈ Icc xn xp, ∑ k ∈ Icc zn zp, G.ds_nz k * G.ds_x * (eddy G (xn - 1) yn).y (i, yn, k) =
      ∑ k ∈ Icc zn zp, G.ds_nz k := by
    rw [sum_eq_single_of_mem xn (mem_Icc.2 ⟨le_rfl, hx⟩)]
    · refine sum_congr rfl fun k _ => ?_
      rw [y0, if_neg (by omega), if_pos rfl]
      have := d1.ne'
      field_simp
      ring
    · intro i hi hne
      rw [mem_Icc] at hi
      refine sum_eq_zero fun k _ => ?_
      rw [y0, if_neg (by omega), if_neg hne]
      simp
  have hp : 0 < ∑ k ∈ Icc zn zp, G.ds_nz k := sum_pos (fun k _ => d3 k) ⟨zn, mem_Icc.2 ⟨le_rfl, hz⟩⟩
  simp only [x1 xp _ _ hx, x1 xn _ _ le_rfl, y1, z1, mul_zero, sum_const_zero, hs]
  linarith

/-- **C159**: the loss of `Poynting_block` is the flux out of the cells behind the lower sides and up to the upper
sides, if nothing flows through the edges at the lower sides. -/
theorem block_partial (G : Grid K) (S : Flux K) (xn xp yn yp zn zp : ℤ) (hx : xn ≤ xp) (hy : yn ≤ yp) (hz : zn ≤ zp)
    (ex : ∀ i, (∀ k, S.x (i, yn, k) = 0) ∧ ∀ j, S.x (i, j, zn) = 0)
    (ey : ∀ j, (∀ k, S.y (xn, j, k) = 0) ∧ ∀ i, S.y (i, j, zn) = 0)
    (ez : ∀ k, (∀ j, S.z (xn, j, k) = 0) ∧ ∀ i, S.z (i, yn, k) = 0) :
    poyntingBlock G S xn xp yn yp zn zp = outflowBox G S xn xp yn yp zn zp := by
  have hk : ∀ f : ℤ → K, ((downTo (zp : ℚ) (zn : ℚ)).map f).sum = ∑ x ∈ Ioc zn zp, f x + f zn := fun f => by
    rw [downTo_sum, trunc_int', Int.ceil_intCast, sum_Ioc_add_eq_sum_Icc hz]
  have hi' : ∀ (a b : ℤ) (f : ℤ → K), a ≤ b → ((upTo (a : ℚ) (b : ℚ)).map f).sum = ∑ x ∈ Ioc a b, f x + f a :=
    fun a b f h => by rw [upTo_sum, trunc_int', Int.floor_intCast, sum_Ioc_add_eq_sum_Icc h]
  rw [gauss G S _ _ _ _ _ _ hx hy hz]
  unfold poyntingBlock sum2
  simp only [hk, hi' _ _ _ hx, hi' _ _ _ hy, (ex _).1, (ex _).2, (ey _).1, (ey _).2, (ez _).1, (ez _).2, mul_zero,
    sum_const_zero, add_zero, mul_sub, sum_sub_distrib]

/-- **C159**: the energies of two blocks that meet in the plane `xm` exceed the energy of their union by the energy
of this layer. -/
theorem blocks_excess (G : Grid K) (u : Ix → K) (xn xm xp yn yp zn zp : ℤ) (h1 : xn ≤ xm) (h2 : xm ≤ xp) :
    energyBlock G u xn xm yn yp zn zp + energyBlock G u xm xp yn yp zn zp =
      energyBlock G u xn xp yn yp zn zp + energyBlock G u xm xm yn yp zn zp := by
  have hi' : ∀ (a b : ℤ) (f : ℤ → K), a ≤ b → ((upTo (a : ℚ) (b : ℚ)).map f).sum = ∑ x ∈ Ioc a b, f x + f a :=
    fun a b f h => by rw [upTo_sum, trunc_int', Int.floor_intCast, sum_Ioc_add_eq_sum_Icc h]
  unfold energyBlock
  rw [hi' _ _ _ h1, hi' _ _ _ h2, hi' _ _ _ (h1.trans h2), hi' _ _ _ (le_refl xm), Ioc_self, sum_empty, zero_add]
  have : Ioc xn xp = Ioc xn xm ∪ Ioc xm xp := by
    ext x
    simp only [mem_union, mem_Ioc]
    omega
  rw [this, sum_union (by
    rw [disjoint_left]
    intro x hx
    rw [mem_Ioc] at hx ⊢
    omega)]
  ring

/-- **C159**, violation: with energy everywhere the two blocks together always have more than their union. -/
theorem blocks_fails (G : Grid K) (u : Ix → K) (hu : ∀ c, 0 < u c) (d1 : 0 < G.ds_x) (d2 : 0 < G.ds_y)
    (d3 : ∀ k, 0 < G.ds_nz k) (xn xm xp yn yp zn zp : ℤ) (h1 : xn ≤ xm) (h2 : xm ≤ xp) (hy : yn ≤ yp) (hz : zn ≤ zp) :
    energyBlock G u xn xp yn yp zn zp <
      energyBlock G u xn xm yn yp zn zp + energyBlock G u xm xp yn yp zn zp := by
  rw [blocks_excess G u xn xm xp yn yp zn zp h1 h2]
  refine lt_add_of_pos_right _ ?_
  unfold energyBlock sum2
  rw [upTo_sum, trunc_int', Int.floor_intCast, Icc_self, sum_singleton, downTo_sum, trunc_int', Int.ceil_intCast]
  refine sum_pos (fun k _ => ?_) ⟨zn, mem_Icc.2 ⟨le_rfl, hz⟩⟩
  rw [upTo_sum, trunc_int', Int.floor_intCast]
  exact sum_pos (fun j _ => mul_pos (mul_pos (mul_pos d1 d2) (d3 k)) (hu _)) ⟨yn, mem_Icc.2 ⟨le_rfl, hy⟩⟩

/-! ### The largest energy -/

theorem foldl_max (u : Ix → K) (l : List Ix) (r : Option Ix × K) :
    let f := l.foldl (fun (r : Option Ix × K) c => if r.2 < u c then (some c, u c) else r) r
    r.2 ≤ f.2 ∧ (∀ c ∈ l, u c ≤ f.2) ∧ (f = r ∨ ∃ c ∈ l, f = (some c, u c)) := by
  induction l generalizing r with
  | nil => simp
  | cons d l ih =>
    rw [List.foldl_cons]
    by_cases h : r.2 < u d
    · rw [if_pos h]
      obtain ⟨a, b, c⟩ := ih (some d, u d)
      refine ⟨h.le.trans a, ?_, ?_⟩
      · intro x hx
        rcases List.mem_cons.1 hx with rfl | hx
        · exact a
        · exact b x hx
      · rcases c with c | ⟨x, hx, c⟩
        · exact Or.inr ⟨d, List.mem_cons_self, c⟩
        · exact Or.inr ⟨x, List.mem_cons_of_mem _ hx, c⟩
    · rw [if_neg h]
      obtain ⟨a, b, c⟩ := ih r
      refine ⟨a, ?_, ?_⟩
      · intro x hx
        rcases List.mem_cons.1 hx with rfl | hx
        · exact (not_lt.1 h).trans a
        · exact b x hx
      · rcases c with c | ⟨x, hx, c⟩
        · exact Or.inl c
        · exact Or.inr ⟨x, List.mem_cons_of_mem _ hx, c⟩

/-- **C159**: the detector returns a node of the block with the largest energy and this energy, when the block is
not empty and energies are larger than the first value of the search. -/
theorem detector_max (u : Ix → K) (xn xp yn yp zn zp : ℤ) (hx : xn ≤ xp) (hy : yn ≤ yp) (hz : zn ≤ zp)
    (hu : ∀ c, (-12345 : K) < u c) :
    ∃ i j k, (xn ≤ i ∧ i ≤ xp) ∧ (yn ≤ j ∧ j ≤ yp) ∧ (zn ≤ k ∧ k ≤ zp) ∧
      detector u xn xp yn yp zn zp = (some (i, j, k), u (i, j, k)) ∧
      ∀ a b c, xn ≤ a → a ≤ xp → yn ≤ b → b ≤ yp → zn ≤ c → c ≤ zp → u (a, b, c) ≤ u (i, j, k) := by
  have mem : ∀ c : Ix, c ∈ ((upTo (xn : ℚ) (xp : ℚ)).flatMap fun i => (downTo (zp : ℚ) (zn : ℚ)).flatMap fun k =>
      (upTo (yn : ℚ) (yp : ℚ)).map fun j => ((i, j, k) : Ix)) ↔
      (xn ≤ c.1 ∧ c.1 ≤ xp) ∧ (yn ≤ c.2.1 ∧ c.2.1 ≤ yp) ∧ zn ≤ c.2.2 ∧ c.2.2 ≤ zp := by
    rintro ⟨a, b, c⟩
    simp only [upTo, downTo, trunc_int', Int.floor_intCast, Int.ceil_intCast, List.mem_flatMap, List.mem_map,
      List.mem_reverse, mem_irange, Int.lt_add_one_iff, Prod.mk.injEq]
    constructor
    · rintro ⟨i, hi, k, hk, j, hj, rfl, rfl, rfl⟩
      exact ⟨hi, hj, hk⟩
    · rintro ⟨hi, hj, hk⟩
      exact ⟨a, hi, c, hk, b, hj, rfl, rfl, rfl⟩
  obtain ⟨h1, h2, h3⟩ := foldl_max u ((upTo (xn : ℚ) (xp : ℚ)).flatMap fun i => (downTo (zp : ℚ) (zn : ℚ)).flatMap fun k =>
      (upTo (yn : ℚ) (yp : ℚ)).map fun j => ((i, j, k) : Ix)) (none, -12345)
  have hd : detector u xn xp yn yp zn zp = ((upTo (xn : ℚ) (xp : ℚ)).flatMap fun i => (downTo (zp : ℚ) (zn : ℚ)).flatMap fun k =>
      (upTo (yn : ℚ) (yp : ℚ)).map fun j => ((i, j, k) : Ix)).foldl
      (fun (r : Option Ix × K) c => if r.2 < u c then (some c, u c) else r) (none, -12345) := rfl
  rw [← hd] at h1 h2 h3
  rcases h3 with h3 | ⟨⟨i, j, k⟩, hm, h3⟩
  · have := h2 (xn, yn, zn) ((mem _).2 ⟨⟨le_rfl, hx⟩, ⟨le_rfl, hy⟩, le_rfl, hz⟩)
    rw [h3] at this
    exact absurd (hu _) (not_lt.2 this)
  · have hm' := (mem _).1 hm
    refine ⟨i, j, k, hm'.1, hm'.2.1, hm'.2.2, h3, fun a b c a1 a2 b1 b2 c1 c2 => ?_⟩
    have := h2 (a, b, c) ((mem _).2 ⟨⟨a1, a2⟩, ⟨b1, b2⟩, c1, c2⟩)
    rwa [h3] at this

end

/-! ### The half sphere -/

/-- **C159**: the three components on the half sphere are those of one vector along the unit vectors of the
spherical coordinates. -/
theorem sphere_vector (a b c θ φ : ℝ) :
    let p := sphereParts a b c θ φ
    p.1 * (Real.sin θ * Real.cos φ) + p.2.1 * (Real.cos θ * Real.cos φ) + p.2.2 * -Real.sin φ = a ∧
    p.1 * (Real.sin θ * Real.sin φ) + p.2.1 * (Real.cos θ * Real.sin φ) + p.2.2 * Real.cos φ = b ∧
    p.1 * Real.cos θ + p.2.1 * -Real.sin θ = c := by
  simp only [sphereParts]
  have h1 := Real.sin_sq_add_cos_sq θ
  have h2 := Real.sin_sq_add_cos_sq φ
  refine ⟨?_, ?_, ?_⟩
  · linear_combination (a * Real.cos φ ^ 2 + b * Real.cos φ * Real.sin φ) * h1 + a * h2
  · linear_combination (b * Real.sin φ ^ 2 + a * Real.cos φ * Real.sin φ) * h1 + b * h2
  · linear_combination c * h1

theorem round_near (q : ℚ) : |(⌊1 / 2 + q⌋ : ℚ) - q| ≤ 1 / 2 := by
  have h1 := Int.floor_le (1 / 2 + q)
  have h2 := Int.lt_floor_add_one (1 / 2 + q)
  rw [abs_le]
  constructor <;> linarith

/-- **C159**: the point of the half sphere is the nearest node along `x`, and along `y` when the centers agree. -/
theorem sphere_index_partial (x y center : ℚ) (lx ly : ℤ) :
    |(sphereX x center lx : ℚ) - (x + center) * lx| ≤ 1 / 2 ∧
    |(sphereY y center center ly : ℚ) - (y + center) * ly| ≤ 1 / 2 :=
  ⟨round_near _, round_near _⟩

/-- **C159**, violation: when the centers differ by more than one cell the index along `y` is not the nearest one,
wherever the point is. -/
theorem sphere_index_fails (y xcenter ycenter : ℚ) (l : ℤ) (h : 1 < |(xcenter - ycenter) * l|) :
    1 / 2 < |(sphereY y xcenter ycenter l : ℚ) - (y + ycenter) * l| := by
  unfold sphereY
  have h1 := Int.floor_le (1 / 2 + (y + xcenter) * l)
  have h2 := Int.lt_floor_add_one (1 / 2 + (y + xcenter) * l)
  rw [lt_abs] at h ⊢
  rcases h with h | h
  · left; linarith
  · right; linarith

/-! ### Examples -/

/-- A grid with layers of three cells, of four cells at one end along `y`. -/
def grid (l pr : ℤ) : Grid ℚ :=
  ⟨40, 40, 40, 3, 3, 3, pr, 3, 3, 10, 10, l, 1, 1, fun _ => 1⟩

theorem grid_fits (l pr : ℤ) (h1 : 0 ≤ l) (h2 : l ≤ 20) (h3 : pr ≤ 10) : (grid l pr).Fits := by
  have a : (0 : ℚ) ≤ l := by exact_mod_cast h1
  have b : (l : ℚ) ≤ 20 := by exact_mod_cast h2
  have c : (pr : ℚ) ≤ 10 := by exact_mod_cast h3
  constructor <;> simp only [grid, lo, hi] <;> push_cast <;> linarith

example : (poyntingTotal (grid 10 3) (sheetX 35 10)).1 + (poyntingTotal (grid 10 3) (sheetX 35 10)).2.1 +
    (poyntingTotal (grid 10 3) (sheetX 35 10)).2.2 = expected (grid 10 3) (sheetX 35 10) :=
  total_partial _ (grid_fits 10 3 (by norm_num) (by norm_num) (by norm_num)) (by decide) rfl _

example : 0 < expected (grid 10 4) (sheetY ⌊hi 40 4 10⌋) :=
  (width_fails (grid 10 4) (grid_fits 10 4 (by norm_num) (by norm_num) (by norm_num)) (by decide)
    (by norm_num [grid, hi]) (by norm_num [grid]) (fun _ => by norm_num [grid])).2

example : 0 < expected (grid 12 3) (sheetX ⌊hi 40 3 10⌋ (⌊lo 3 12⌋ + 1)) :=
  (layer_fails (grid 12 3) (grid_fits 12 3 (by norm_num) (by norm_num) (by norm_num)) (by decide)
    (by norm_num [grid]) (fun _ => by norm_num [grid])).2

example : poyntingBlock (grid 10 3) (eddy (grid 10 3) 9 10) 10 20 10 20 10 20 < 0 :=
  (block_fails (grid 10 3) (by norm_num [grid]) (by norm_num [grid]) (fun _ => by norm_num [grid]) 10 20 10 20 10 20
    (by norm_num) (by norm_num) (by norm_num)).2

example : verticalLoss (grid 10 3) (sheetX ⌊hi 40 3 10⌋ 20) 15 20 <
    (poyntingUpDown (grid 10 3) (sheetX ⌊hi 40 3 10⌋ 20) 15 20).1 +
      (poyntingUpDown (grid 10 3) (sheetX ⌊hi 40 3 10⌋ 20) 15 20).2 :=
  updown_fails (grid 10 3) (grid_fits 10 3 (by norm_num) (by norm_num) (by norm_num)) (by decide) rfl 15 20
    (Int.floor_lt.2 (by norm_num [grid, lo])) (by norm_num) (Int.le_floor.2 (by norm_num [grid, hi]))
    (by norm_num [grid]) (fun _ => by norm_num [grid])

example : energyBlock (grid 10 3) (fun c => 1 + (c.1 : ℚ) ^ 2) 10 20 10 20 10 20 <
    energyBlock (grid 10 3) (fun c => 1 + (c.1 : ℚ) ^ 2) 10 15 10 20 10 20 +
      energyBlock (grid 10 3) (fun c => 1 + (c.1 : ℚ) ^ 2) 15 20 10 20 10 20 :=
  blocks_fails _ _ (fun c => by positivity) (by norm_num [grid]) (by norm_num [grid]) (fun _ => by norm_num [grid])
    10 15 20 10 20 10 20 (by norm_num) (by norm_num) (by norm_num) (by norm_num)

example : ∃ i j k : ℤ, detector (fun c : Ix => -(c.1 : ℚ) ^ 2 / (1 + (c.1 : ℚ) ^ 2)) (-3) 3 0 2 0 2 =
    (some (i, j, k), -(i : ℚ) ^ 2 / (1 + (i : ℚ) ^ 2)) ∧ -3 ≤ i ∧ i ≤ 3 := by
  obtain ⟨i, j, k, hi, -, -, h, -⟩ := detector_max (fun c : Ix => -(c.1 : ℚ) ^ 2 / (1 + (c.1 : ℚ) ^ 2)) (-3) 3 0 2 0 2
    (by norm_num) (by norm_num) (by norm_num) (fun c => by
      rw [lt_div_iff₀ (by positivity)]
      nlinarith [sq_nonneg (c.1 : ℚ)])
  exact ⟨i, j, k, h, hi⟩

example : 1 / 2 < |(sphereY (1 / 3) 5 4 10 : ℚ) - (1 / 3 + 4) * (10 : ℤ)| :=
  sphere_index_fails (1 / 3) 5 4 10 (by norm_num)

end OpenMS.FdtdEnergy
