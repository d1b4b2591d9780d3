import Verif.Model.FdtdBloch
import Verif.Props.Fdtd

/-!
# C156: Bloch waves in the Maxwell solver

The real and the imaginary arrays are the parts of a complex field, and the run in one unit cell is the
run of the whole crystal for fields that only get a phase from one unit cell to the next, for the
rectangular and for the triangular lattice.
-/

namespace OpenMS.Fdtd

open Complex

/-! ### Complex fields -/

/-- The complex number with the given parts. -/
noncomputable def cx (a b : ℝ) : ℂ := (a : ℂ) + (b : ℂ) * I

/-- Complex electric numbers of a cell. -/
noncomputable def combE (v : EF ℝ × EF ℝ) : EF ℂ :=
  ⟨cx v.1.x v.2.x, cx v.1.y v.2.y, cx v.1.z v.2.z, cx v.1.Jx v.2.Jx, cx v.1.Jy v.2.Jy, cx v.1.Jz v.2.Jz,
    cx v.1.Dx v.2.Dx, cx v.1.Dy v.2.Dy, cx v.1.Dz v.2.Dz⟩

/-- Complex magnetic numbers of a cell. -/
noncomputable def combH (v : HF ℝ × HF ℝ) : HF ℂ :=
  ⟨cx v.1.x v.2.x, cx v.1.y v.2.y, cx v.1.z v.2.z, cx v.1.Bx v.2.Bx, cx v.1.By v.2.By, cx v.1.Bz v.2.Bz⟩

/-- All electric numbers times a factor. -/
def smulE (z : ℂ) (v : EF ℂ) : EF ℂ :=
  ⟨z * v.x, z * v.y, z * v.z, z * v.Jx, z * v.Jy, z * v.Jz, z * v.Dx, z * v.Dy, z * v.Dz⟩

/-- All magnetic numbers times a factor. -/
def smulH (z : ℂ) (v : HF ℂ) : HF ℂ := ⟨z * v.x, z * v.y, z * v.z, z * v.Bx, z * v.By, z * v.Bz⟩

/-- The same materials and coefficients as complex numbers. -/
noncomputable def complexPar (P : Par ℝ) : Par ℂ where
  dt := (P.dt : ℂ)
  eo := (P.eo : ℂ)
  uo := (P.uo : ℂ)
  ups := (P.ups : ℂ)
  ds_x := (P.ds_x : ℂ)
  ds_y := (P.ds_y : ℂ)
  ds_nz := fun k => (P.ds_nz k : ℂ)
  pisize := P.pisize
  pjsize := P.pjsize
  pksize := P.pksize
  isize := P.isize
  jsize := P.jsize
  use_periodic_x := P.use_periodic_x
  use_periodic_y := P.use_periodic_y
  position := P.position
  epsilonx := fun c => (P.epsilonx c : ℂ)
  epsilony := fun c => (P.epsilony c : ℂ)
  epsilonz := fun c => (P.epsilonz c : ℂ)
  mepsilon := fun c => (P.mepsilon c : ℂ)
  momega := fun c => (P.momega c : ℂ)
  mgamma := fun c => (P.mgamma c : ℂ)
  dPx := fun c => (P.dPx c : ℂ)
  dPy := fun c => (P.dPy c : ℂ)
  dPz := fun c => (P.dPz c : ℂ)
  dPx_old := fun c => (P.dPx_old c : ℂ)
  dPy_old := fun c => (P.dPy_old c : ℂ)
  dPz_old := fun c => (P.dPz_old c : ℂ)
  ddx := fun c => (P.ddx c : ℂ)
  ddy := fun c => (P.ddy c : ℂ)
  ddz := fun c => (P.ddz c : ℂ)
  aax := fun i => (P.aax i : ℂ)
  aay := fun i => (P.aay i : ℂ)
  aaz := fun i => (P.aaz i : ℂ)
  bbx := fun i => (P.bbx i : ℂ)
  bby := fun i => (P.bby i : ℂ)
  bbz := fun i => (P.bbz i : ℂ)
  ccx := fun i => (P.ccx i : ℂ)
  ccy := fun i => (P.ccy i : ℂ)
  ccz := fun i => (P.ccz i : ℂ)
  eex := fun i => (P.eex i : ℂ)
  eey := fun i => (P.eey i : ℂ)
  eez := fun i => (P.eez i : ℂ)
  ffx := fun i => (P.ffx i : ℂ)
  ffy := fun i => (P.ffy i : ℂ)
  ffz := fun i => (P.ffz i : ℂ)
  ggx := fun i => (P.ggx i : ℂ)
  ggy := fun i => (P.ggy i : ℂ)
  ggz := fun i => (P.ggz i : ℂ)
  hhx := fun i => (P.hhx i : ℂ)
  hhy := fun i => (P.hhy i : ℂ)
  hhz := fun i => (P.hhz i : ℂ)
  iix := fun i => (P.iix i : ℂ)
  iiy := fun i => (P.iiy i : ℂ)
  iiz := fun i => (P.iiz i : ℂ)
  jjx := fun i => (P.jjx i : ℂ)
  jjy := fun i => (P.jjy i : ℂ)
  jjz := fun i => (P.jjz i : ℂ)
  kkx := fun i => (P.kkx i : ℂ)
  kky := fun i => (P.kky i : ℂ)
  kkz := fun i => (P.kkz i : ℂ)
  llx := fun i => (P.llx i : ℂ)
  lly := fun i => (P.lly i : ℂ)
  llz := fun i => (P.llz i : ℂ)

/-- No cell is a molecule. -/
def NoMolecule (P : Par ℝ) : Prop := ∀ c, P.position c = true → P.mepsilon c ≠ 100

theorem curlHx_complex (P : Par ℝ) (h : HA ℝ) (c : Ix) :
    curlHx (complexPar P) (fun d => combH (h d)) c =
      cx (curlHx P (fun d => (h d).1) c) (curlHx P (fun d => (h d).2) c) := by
  obtain ⟨i, j, k⟩ := c
  simp only [curlHx, combH, cx, complexPar]; push_cast; ring

theorem curlHy_complex (P : Par ℝ) (h : HA ℝ) (c : Ix) :
    curlHy (complexPar P) (fun d => combH (h d)) c =
      cx (curlHy P (fun d => (h d).1) c) (curlHy P (fun d => (h d).2) c) := by
  obtain ⟨i, j, k⟩ := c
  simp only [curlHy, combH, cx, complexPar]; push_cast; ring

theorem curlHz_complex (P : Par ℝ) (h : HA ℝ) (c : Ix) :
    curlHz (complexPar P) (fun d => combH (h d)) c =
      cx (curlHz P (fun d => (h d).1) c) (curlHz P (fun d => (h d).2) c) := by
  obtain ⟨i, j, k⟩ := c
  simp only [curlHz, combH, cx, complexPar]; push_cast; ring

theorem curlEx_complex (P : Par ℝ) (e : EA ℝ) (c : Ix) :
    curlEx (complexPar P) (fun d => combE (e d)) c =
      cx (curlEx P (fun d => (e d).1) c) (curlEx P (fun d => (e d).2) c) := by
  obtain ⟨i, j, k⟩ := c
  simp only [curlEx, combE, cx, complexPar]; push_cast; ring

theorem curlEy_complex (P : Par ℝ) (e : EA ℝ) (c : Ix) :
    curlEy (complexPar P) (fun d => combE (e d)) c =
      cx (curlEy P (fun d => (e d).1) c) (curlEy P (fun d => (e d).2) c) := by
  obtain ⟨i, j, k⟩ := c
  simp only [curlEy, combE, cx, complexPar]; push_cast; ring

theorem curlEz_complex (P : Par ℝ) (e : EA ℝ) (c : Ix) :
    curlEz (complexPar P) (fun d => combE (e d)) c =
      cx (curlEz P (fun d => (e d).1) c) (curlEz P (fun d => (e d).2) c) := by
  obtain ⟨i, j, k⟩ := c
  simp only [curlEz, combE, cx, complexPar]; push_cast; ring

theorem cast_eq_zero (x : ℝ) : (x : ℂ) = 0 ↔ x = 0 := ofReal_eq_zero

theorem cast_eq_100 (x : ℝ) : (x : ℂ) = 100 ↔ x = 100 := by
  rw [show (100 : ℂ) = ((100 : ℝ) : ℂ) by norm_num, ofReal_inj]

theorem cast_eq_1000 (x : ℝ) : (x : ℂ) = 1000 ↔ x = 1000 := by
  rw [show (1000 : ℂ) = ((1000 : ℝ) : ℂ) by norm_num, ofReal_inj]

/-- At a cell that is not a molecule the electric updates of the two arrays are the update of the complex
field, whatever the material. -/
theorem stepE_complex_partial (P : Par ℝ) (h : HA ℝ) (c : Ix) (v : EF ℝ × EF ℝ)
    (hm : P.position c = true → P.mepsilon c ≠ 100) :
    combE (stepE P (fun d => (h d).1) c v.1, stepIE P (fun d => (h d).2) c v.2) =
      stepE (complexPar P) (fun d => combH (h d)) c (combE v) := by
  have hp : (complexPar P).position c = P.position c := rfl
  have he : (complexPar P).mepsilon c = (P.mepsilon c : ℂ) := rfl
  have c100 : ¬ (P.position c = true ∧ P.mepsilon c = 100) := fun hh => hm hh.1 hh.2
  have n0 : normalE (complexPar P) (fun d => combH (h d)) c (combE v) =
      combE (normalE P (fun d => (h d).1) c v.1, normalE P (fun d => (h d).2) c v.2) := by
    simp only [normalE, curlHx_complex, curlHy_complex, curlHz_complex]
    ext <;> simp only [combE, cx, complexPar] <;> push_cast <;> ring
  have n1 : metalE (complexPar P) (fun d => combH (h d)) c (combE v) =
      combE (metalE P (fun d => (h d).1) c v.1, metalE P (fun d => (h d).2) c v.2) := by
    simp only [metalE, curlHx_complex, curlHy_complex, curlHz_complex]
    ext <;> simp only [combE, cx, complexPar] <;> push_cast <;> ring
  have n2 : pmlE (complexPar P) (fun d => combH (h d)) c (combE v) =
      combE (pmlE P (fun d => (h d).1) c v.1, pmlE P (fun d => (h d).2) c v.2) := by
    obtain ⟨i, j, k⟩ := c
    simp only [pmlE, curlHx_complex, curlHy_complex, curlHz_complex]
    ext <;> simp only [combE, cx, complexPar] <;> push_cast <;> ring
  have n3 : pcmE (combE v) = combE (pcmE v.1, pcmE v.2) := by
    ext <;> simp [combE, cx, pcmE]
  unfold stepE stepIE
  dsimp only
  simp only [hp, he, cast_eq_zero, cast_eq_100, cast_eq_1000, ne_eq, c100, if_false, n0, n1, n2, n3]
  split_ifs <;> rfl

/-- The magnetic updates of the two arrays are the update of the complex field, at every cell. -/
theorem stepH_complex (P : Par ℝ) (e : EA ℝ) (c : Ix) (v : HF ℝ × HF ℝ) :
    combH (stepH P (fun d => (e d).1) c v.1, stepH P (fun d => (e d).2) c v.2) =
      stepH (complexPar P) (fun d => combE (e d)) c (combH v) := by
  have hp : (complexPar P).position c = P.position c := rfl
  have he : (complexPar P).mepsilon c = (P.mepsilon c : ℂ) := rfl
  have n0 : normalH (complexPar P) (fun d => combE (e d)) c (combH v) =
      combH (normalH P (fun d => (e d).1) c v.1, normalH P (fun d => (e d).2) c v.2) := by
    simp only [normalH, tus, curlEx_complex, curlEy_complex, curlEz_complex]
    ext <;> simp only [combH, cx, complexPar] <;> push_cast <;> ring
  have n2 : pmlH (complexPar P) (fun d => combE (e d)) c (combH v) =
      combH (pmlH P (fun d => (e d).1) c v.1, pmlH P (fun d => (e d).2) c v.2) := by
    obtain ⟨i, j, k⟩ := c
    simp only [pmlH, curlEx_complex, curlEy_complex, curlEz_complex]
    ext <;> simp only [combH, cx, complexPar] <;> push_cast <;> ring
  have n3 : pcmH (combH v) = combH (pcmH v.1, pcmH v.2) := by
    ext <;> simp [combH, cx, pcmH]
  unfold stepH
  dsimp only
  simp only [hp, he, cast_eq_zero, cast_eq_1000, ne_eq, n0, n2, n3]
  split_ifs <;> rfl

/-- At a molecule without plasma frequency the real array has the permittivity of the cell and the
imaginary array the permittivity 100: the two arrays follow different equations. -/
theorem molecule_fails (P : Par ℝ) (h : HA ℝ) (c : Ix) (v : EF ℝ × EF ℝ)
    (hp : P.position c = true) (hm : P.mepsilon c = 100) (hw : P.momega c = 0) (ho : P.eo ≠ 0)
    (hd : P.dPx c = 0 ∧ P.dPx_old c = 0) (hJ : v.2.Jx = 0) :
    (stepE P (fun d => (h d).1) c v.1).x =
      v.1.x + P.dt / P.eo / P.epsilonx c * curlHx P (fun d => (h d).1) c ∧
    (stepIE P (fun d => (h d).2) c v.2).x =
      v.2.x + P.dt / P.eo / 100 * curlHx P (fun d => (h d).2) c := by
  constructor
  · unfold stepE
    dsimp only
    rw [if_neg (by rw [hm]; norm_num), if_pos ⟨hp, hm⟩]
    simp [molecularE, hd.1, hd.2]
  · unfold stepIE
    dsimp only
    rw [if_neg (by rw [hm]; norm_num), if_pos ⟨hp, by rw [hm]; norm_num, by rw [hm]; norm_num⟩]
    simp only [metalE, hw, hm, hJ]
    have h1 : (2 : ℝ) * P.eo * 100 ≠ 0 := by positivity
    field_simp
    ring

/-! ### The crystal -/

/-- The cell of the unit cell that a cell of the crystal is a copy of; the crystal has the lattice
vectors `(I, 0)` and `(U, J)`. -/
def cellOf (I J U : ℤ) (c : Ix) : Ix :=
  let n := (c.2.1 - 1) / J
  let m := (c.1 - n * U - 1) / I
  (c.1 - n * U - m * I, c.2.1 - n * J, c.2.2)

/-- The phase of `m` steps along the first and `n` along the second lattice vector. -/
noncomputable def blochPhase (α β : ℝ) (m n : ℤ) : ℂ := exp (2 * Real.pi * (α * m + β * n) * I)

/-- The phase of the unit cell of a cell of the crystal. -/
noncomputable def phaseOf (I J U : ℤ) (α β : ℝ) (c : Ix) : ℂ :=
  let n := (c.2.1 - 1) / J
  blochPhase α β ((c.1 - n * U - 1) / I) n

/-- The electric field of the crystal. -/
noncomputable def crystalE (I J U : ℤ) (α β : ℝ) (e : EA ℝ) (c : Ix) : EF ℂ :=
  smulE (phaseOf I J U α β c) (combE (e (cellOf I J U c)))

/-- The magnetic field of the crystal. -/
noncomputable def crystalH (I J U : ℤ) (α β : ℝ) (h : HA ℝ) (c : Ix) : HF ℂ :=
  smulH (phaseOf I J U α β c) (combH (h (cellOf I J U c)))

/-- The materials of the crystal.  The coefficients along `x` and `y` are those of the first cell. -/
noncomputable def bulk (P : Par ℝ) (U : ℤ) : Par ℂ :=
  { complexPar P with
    position := fun c => P.position (cellOf P.isize P.jsize U c)
    epsilonx := fun c => (P.epsilonx (cellOf P.isize P.jsize U c) : ℂ)
    epsilony := fun c => (P.epsilony (cellOf P.isize P.jsize U c) : ℂ)
    epsilonz := fun c => (P.epsilonz (cellOf P.isize P.jsize U c) : ℂ)
    mepsilon := fun c => (P.mepsilon (cellOf P.isize P.jsize U c) : ℂ)
    momega := fun c => (P.momega (cellOf P.isize P.jsize U c) : ℂ)
    mgamma := fun c => (P.mgamma (cellOf P.isize P.jsize U c) : ℂ)
    dPx := fun c => (P.dPx (cellOf P.isize P.jsize U c) : ℂ)
    dPy := fun c => (P.dPy (cellOf P.isize P.jsize U c) : ℂ)
    dPz := fun c => (P.dPz (cellOf P.isize P.jsize U c) : ℂ)
    dPx_old := fun c => (P.dPx_old (cellOf P.isize P.jsize U c) : ℂ)
    dPy_old := fun c => (P.dPy_old (cellOf P.isize P.jsize U c) : ℂ)
    dPz_old := fun c => (P.dPz_old (cellOf P.isize P.jsize U c) : ℂ)
    ddx := fun c => (P.ddx (cellOf P.isize P.jsize U c) : ℂ)
    ddy := fun c => (P.ddy (cellOf P.isize P.jsize U c) : ℂ)
    ddz := fun c => (P.ddz (cellOf P.isize P.jsize U c) : ℂ)
    aax := fun _ => (P.aax 1 : ℂ)
    aay := fun _ => (P.aay 1 : ℂ)
    bbx := fun _ => (P.bbx 1 : ℂ)
    bby := fun _ => (P.bby 1 : ℂ)
    ccx := fun _ => (P.ccx 1 : ℂ)
    ccy := fun _ => (P.ccy 1 : ℂ)
    eex := fun _ => (P.eex 1 : ℂ)
    eey := fun _ => (P.eey 1 : ℂ)
    ffx := fun _ => (P.ffx 1 : ℂ)
    ffy := fun _ => (P.ffy 1 : ℂ)
    ggx := fun _ => (P.ggx 1 : ℂ)
    ggy := fun _ => (P.ggy 1 : ℂ)
    hhx := fun _ => (P.hhx 1 : ℂ)
    hhy := fun _ => (P.hhy 1 : ℂ)
    iix := fun _ => (P.iix 1 : ℂ)
    iiy := fun _ => (P.iiy 1 : ℂ)
    jjx := fun _ => (P.jjx 1 : ℂ)
    jjy := fun _ => (P.jjy 1 : ℂ)
    kkx := fun _ => (P.kkx 1 : ℂ)
    kky := fun _ => (P.kky 1 : ℂ)
    llx := fun _ => (P.llx 1 : ℂ)
    lly := fun _ => (P.lly 1 : ℂ) }

/-- The coefficients along the periodic directions do not change within the unit cell: there is no
absorbing layer. -/
def Uniform (P : Par ℝ) : Prop :=
  (∀ i, 1 ≤ i → i ≤ P.isize →
    P.aax i = P.aax 1 ∧ P.bbx i = P.bbx 1 ∧ P.ccx i = P.ccx 1 ∧ P.eex i = P.eex 1 ∧ P.ffx i = P.ffx 1 ∧ P.ggx i = P.ggx 1 ∧ P.hhx i = P.hhx 1 ∧ P.iix i = P.iix 1 ∧ P.jjx i = P.jjx 1 ∧ P.kkx i = P.kkx 1 ∧ P.llx i = P.llx 1) ∧
  (∀ j, 1 ≤ j → j ≤ P.jsize →
    P.aay j = P.aay 1 ∧ P.bby j = P.bby 1 ∧ P.ccy j = P.ccy 1 ∧ P.eey j = P.eey 1 ∧ P.ffy j = P.ffy 1 ∧ P.ggy j = P.ggy 1 ∧ P.hhy j = P.hhy 1 ∧ P.iiy j = P.iiy 1 ∧ P.jjy j = P.jjy 1 ∧ P.kky j = P.kky 1 ∧ P.lly j = P.lly 1)

/-- A cell of the unit cell, or of the layers above and below. -/
def InCell (I J : ℤ) (c : Ix) : Prop := (1 ≤ c.1 ∧ c.1 ≤ I) ∧ 1 ≤ c.2.1 ∧ c.2.1 ≤ J

theorem ediv_zero_of {a n : ℤ} (h0 : 1 ≤ a) (h1 : a ≤ n) : (a - 1) / n = 0 :=
  Int.ediv_eq_zero_of_lt (by omega) (by omega)

theorem cellOf_self {I J U : ℤ} {c : Ix} (hc : InCell I J c) : cellOf I J U c = c := by
  obtain ⟨i, j, k⟩ := c
  obtain ⟨⟨h1, h2⟩, h3, h4⟩ := hc
  dsimp only at h1 h2 h3 h4
  simp [cellOf, ediv_zero_of h3 h4, ediv_zero_of h1 h2]

theorem blochPhase_zero (α β : ℝ) : blochPhase α β 0 0 = 1 := by simp [blochPhase]

theorem phaseOf_self {I J U : ℤ} {c : Ix} (α β : ℝ) (hc : InCell I J c) : phaseOf I J U α β c = 1 := by
  obtain ⟨i, j, k⟩ := c
  obtain ⟨⟨h1, h2⟩, h3, h4⟩ := hc
  dsimp only at h1 h2 h3 h4
  simp [phaseOf, ediv_zero_of h3 h4, ediv_zero_of h1 h2, blochPhase_zero]

theorem cellOf_add {I J : ℤ} (U : ℤ) (hI : 1 ≤ I) (hJ : 1 ≤ J) (m n i j k : ℤ) :
    cellOf I J U (i + m * I + n * U, j + n * J, k) = cellOf I J U (i, j, k) := by
  have e1 : (j + n * J - 1) / J = (j - 1) / J + n := by
    rw [show j + n * J - 1 = j - 1 + n * J by ring, Int.add_mul_ediv_right _ _ (by omega)]
  have e2 : (i + m * I + n * U - ((j - 1) / J + n) * U - 1) / I = (i - (j - 1) / J * U - 1) / I + m := by
    rw [show i + m * I + n * U - ((j - 1) / J + n) * U - 1 = i - (j - 1) / J * U - 1 + m * I by ring,
      Int.add_mul_ediv_right _ _ (by omega)]
  simp only [cellOf, e1, e2, Prod.mk.injEq]
  exact ⟨by ring, by ring, trivial⟩

theorem phaseOf_add {I J : ℤ} (U : ℤ) (α β : ℝ) (hI : 1 ≤ I) (hJ : 1 ≤ J) (m n i j k : ℤ) :
    phaseOf I J U α β (i + m * I + n * U, j + n * J, k) =
      blochPhase α β m n * phaseOf I J U α β (i, j, k) := by
  have e1 : (j + n * J - 1) / J = (j - 1) / J + n := by
    rw [show j + n * J - 1 = j - 1 + n * J by ring, Int.add_mul_ediv_right _ _ (by omega)]
  have e2 : (i + m * I + n * U - ((j - 1) / J + n) * U - 1) / I = (i - (j - 1) / J * U - 1) / I + m := by
    rw [show i + m * I + n * U - ((j - 1) / J + n) * U - 1 = i - (j - 1) / J * U - 1 + m * I by ring,
      Int.add_mul_ediv_right _ _ (by omega)]
  simp only [phaseOf, e1, e2, blochPhase]
  rw [← exp_add]
  congr 1
  push_cast
  ring

/-- The field of the crystal is the same in all unit cells up to the phase. -/
theorem crystalE_bloch {I J : ℤ} (U : ℤ) (α β : ℝ) (hI : 1 ≤ I) (hJ : 1 ≤ J) (e : EA ℝ) (m n i j k : ℤ) :
    crystalE I J U α β e (i + m * I + n * U, j + n * J, k) =
      smulE (blochPhase α β m n) (crystalE I J U α β e (i, j, k)) := by
  unfold crystalE
  rw [cellOf_add U hI hJ, phaseOf_add U α β hI hJ]
  simp only [smulE, mul_assoc]

theorem crystalH_bloch {I J : ℤ} (U : ℤ) (α β : ℝ) (hI : 1 ≤ I) (hJ : 1 ≤ J) (h : HA ℝ) (m n i j k : ℤ) :
    crystalH I J U α β h (i + m * I + n * U, j + n * J, k) =
      smulH (blochPhase α β m n) (crystalH I J U α β h (i, j, k)) := by
  unfold crystalH
  rw [cellOf_add U hI hJ, phaseOf_add U α β hI hJ]
  simp only [smulH, mul_assoc]

theorem exists_cell {I J : ℤ} (U : ℤ) (hI : 1 ≤ I) (hJ : 1 ≤ J) (i j : ℤ) :
    ∃ m n i' j', (1 ≤ i' ∧ i' ≤ I) ∧ (1 ≤ j' ∧ j' ≤ J) ∧ i = i' + m * I + n * U ∧ j = j' + n * J := by
  have a1 := Int.emod_nonneg (j - 1) (show J ≠ 0 by omega)
  have a2 := Int.emod_lt_of_pos (j - 1) (show 0 < J by omega)
  have a3 := Int.mul_ediv_add_emod (j - 1) J
  set n := (j - 1) / J
  have b1 := Int.emod_nonneg (i - n * U - 1) (show I ≠ 0 by omega)
  have b2 := Int.emod_lt_of_pos (i - n * U - 1) (show 0 < I by omega)
  have b3 := Int.mul_ediv_add_emod (i - n * U - 1) I
  refine ⟨(i - n * U - 1) / I, n, (i - n * U - 1) % I + 1, (j - 1) % J + 1, ⟨by omega, by omega⟩,
    ⟨by omega, by omega⟩, ?_, ?_⟩ <;> linarith

theorem stepE_trans (P : Par ℝ) (U m n i j k : ℤ) (hI : 1 ≤ P.isize) (hJ : 1 ≤ P.jsize)
    (hm : NoMolecule P) (H : Ix → HF ℂ) (z : ℂ) (u : EF ℂ)
    (hH : ∀ i j k, H (i + m * P.isize + n * U, j + n * P.jsize, k) = smulH z (H (i, j, k))) :
    stepE (bulk P U) H (i + m * P.isize + n * U, j + n * P.jsize, k) (smulE z u) =
      smulE z (stepE (bulk P U) H (i, j, k) u) := by
  have hw := cellOf_add U hI hJ m n i j k
  have h1 : H (i + m * P.isize + n * U - 1, j + n * P.jsize, k) = smulH z (H (i - 1, j, k)) := by
    rw [← hH]; congr 2; ring
  have h2 : H (i + m * P.isize + n * U, j + n * P.jsize - 1, k) = smulH z (H (i, j - 1, k)) := by
    rw [← hH]; congr 2; ring_nf
  have cX : curlHx (bulk P U) H (i + m * P.isize + n * U, j + n * P.jsize, k) =
      z * curlHx (bulk P U) H (i, j, k) := by
    simp only [curlHx, h2, hH, smulH]; ring
  have cY : curlHy (bulk P U) H (i + m * P.isize + n * U, j + n * P.jsize, k) =
      z * curlHy (bulk P U) H (i, j, k) := by
    simp only [curlHy, h1, hH, smulH]; ring
  have cZ : curlHz (bulk P U) H (i + m * P.isize + n * U, j + n * P.jsize, k) =
      z * curlHz (bulk P U) H (i, j, k) := by
    simp only [curlHz, h1, h2, hH, smulH]; ring
  have hpos : (bulk P U).position (i + m * P.isize + n * U, j + n * P.jsize, k) =
      (bulk P U).position (i, j, k) := by simp only [bulk, hw]
  have hme : (bulk P U).mepsilon (i + m * P.isize + n * U, j + n * P.jsize, k) =
      (bulk P U).mepsilon (i, j, k) := by simp only [bulk, hw]
  have n0 : normalE (bulk P U) H (i + m * P.isize + n * U, j + n * P.jsize, k) (smulE z u) =
      smulE z (normalE (bulk P U) H (i, j, k) u) := by
    simp only [normalE, cX, cY, cZ]
    ext <;> simp only [bulk, hw, smulE] <;> ring
  have n1 : metalE (bulk P U) H (i + m * P.isize + n * U, j + n * P.jsize, k) (smulE z u) =
      smulE z (metalE (bulk P U) H (i, j, k) u) := by
    simp only [metalE, cX, cY, cZ]
    ext <;> simp only [bulk, hw, smulE] <;> ring
  have n2 : pmlE (bulk P U) H (i + m * P.isize + n * U, j + n * P.jsize, k) (smulE z u) =
      smulE z (pmlE (bulk P U) H (i, j, k) u) := by
    simp only [pmlE, cX, cY, cZ]
    ext <;> simp only [bulk, hw, smulE] <;> ring
  have n3 : pcmE (smulE z u) = smulE z (pcmE u) := by
    ext <;> simp [smulE, pcmE]
  have c100 : ¬ ((bulk P U).position (i, j, k) = true ∧ (bulk P U).mepsilon (i, j, k) = 100) := by
    rintro ⟨a, b⟩
    exact hm _ a ((cast_eq_100 _).1 b)
  unfold stepE
  dsimp only
  simp only [hpos, hme, n0, n1, n2, n3, c100, if_false]
  split_ifs <;> rfl

theorem stepH_trans (P : Par ℝ) (U m n i j k : ℤ) (hI : 1 ≤ P.isize) (hJ : 1 ≤ P.jsize)
    (E : Ix → EF ℂ) (z : ℂ) (u : HF ℂ)
    (hE : ∀ i j k, E (i + m * P.isize + n * U, j + n * P.jsize, k) = smulE z (E (i, j, k))) :
    stepH (bulk P U) E (i + m * P.isize + n * U, j + n * P.jsize, k) (smulH z u) =
      smulH z (stepH (bulk P U) E (i, j, k) u) := by
  have hw := cellOf_add U hI hJ m n i j k
  have h1 : E (i + m * P.isize + n * U + 1, j + n * P.jsize, k) = smulE z (E (i + 1, j, k)) := by
    rw [← hE]; congr 2; ring
  have h2 : E (i + m * P.isize + n * U, j + n * P.jsize + 1, k) = smulE z (E (i, j + 1, k)) := by
    rw [← hE]; congr 2; ring_nf
  have cX : curlEx (bulk P U) E (i + m * P.isize + n * U, j + n * P.jsize, k) =
      z * curlEx (bulk P U) E (i, j, k) := by
    simp only [curlEx, h2, hE, smulE]; ring
  have cY : curlEy (bulk P U) E (i + m * P.isize + n * U, j + n * P.jsize, k) =
      z * curlEy (bulk P U) E (i, j, k) := by
    simp only [curlEy, h1, hE, smulE]; ring
  have cZ : curlEz (bulk P U) E (i + m * P.isize + n * U, j + n * P.jsize, k) =
      z * curlEz (bulk P U) E (i, j, k) := by
    simp only [curlEz, h1, h2, hE, smulE]; ring
  have hpos : (bulk P U).position (i + m * P.isize + n * U, j + n * P.jsize, k) =
      (bulk P U).position (i, j, k) := by simp only [bulk, hw]
  have hme : (bulk P U).mepsilon (i + m * P.isize + n * U, j + n * P.jsize, k) =
      (bulk P U).mepsilon (i, j, k) := by simp only [bulk, hw]
  have n0 : normalH (bulk P U) E (i + m * P.isize + n * U, j + n * P.jsize, k) (smulH z u) =
      smulH z (normalH (bulk P U) E (i, j, k) u) := by
    simp only [normalH, cX, cY, cZ]
    ext <;> simp only [smulH] <;> ring
  have n2 : pmlH (bulk P U) E (i + m * P.isize + n * U, j + n * P.jsize, k) (smulH z u) =
      smulH z (pmlH (bulk P U) E (i, j, k) u) := by
    simp only [pmlH, cX, cY, cZ]
    ext <;> simp only [bulk, smulH] <;> ring
  have n3 : pcmH (smulH z u) = smulH z (pcmH u) := by
    ext <;> simp [smulH, pcmH]
  unfold stepH
  dsimp only
  simp only [hpos, hme, n0, n2, n3]
  split_ifs <;> rfl

theorem stepE_local (P : Par ℝ) (U : ℤ) (hu : Uniform P) (H G : Ix → HF ℂ) (c : Ix)
    (hc : InCell P.isize P.jsize c) (v : EF ℂ)
    (h1 : curlHx (bulk P U) H c = curlHx (complexPar P) G c)
    (h2 : curlHy (bulk P U) H c = curlHy (complexPar P) G c)
    (h3 : curlHz (bulk P U) H c = curlHz (complexPar P) G c) :
    stepE (bulk P U) H c v = stepE (complexPar P) G c v := by
  have hw := cellOf_self (U := U) hc
  obtain ⟨i, j, k⟩ := c
  obtain ⟨x1, x2, x3, x4, x5, x6, x7, x8, x9, x10, x11⟩ := hu.1 i hc.1.1 hc.1.2
  obtain ⟨y1, y2, y3, y4, y5, y6, y7, y8, y9, y10, y11⟩ := hu.2 j hc.2.1 hc.2.2
  simp only [stepE, normalE, molecularE, metalE, pmlE, h1, h2, h3]
  simp only [bulk, complexPar, hw, x1, x2, x3, x4, x5, y1, y2, y3, y4, y5]

theorem stepH_local (P : Par ℝ) (U : ℤ) (hu : Uniform P) (E G : Ix → EF ℂ) (c : Ix)
    (hc : InCell P.isize P.jsize c) (v : HF ℂ)
    (h1 : curlEx (bulk P U) E c = curlEx (complexPar P) G c)
    (h2 : curlEy (bulk P U) E c = curlEy (complexPar P) G c)
    (h3 : curlEz (bulk P U) E c = curlEz (complexPar P) G c) :
    stepH (bulk P U) E c v = stepH (complexPar P) G c v := by
  have hw := cellOf_self (U := U) hc
  obtain ⟨i, j, k⟩ := c
  obtain ⟨x1, x2, x3, x4, x5, x6, x7, x8, x9, x10, x11⟩ := hu.1 i hc.1.1 hc.1.2
  obtain ⟨y1, y2, y3, y4, y5, y6, y7, y8, y9, y10, y11⟩ := hu.2 j hc.2.1 hc.2.2
  simp only [stepH, normalH, pmlH, h1, h2, h3]
  simp only [bulk, complexPar, hw, tus, x6, x7, x8, x9, x10, x11, y6, y7, y8, y9, y10, y11]

/-! ### Boundary values -/

/-- The boundary values of the electric arrays that the magnetic updates read are those of the crystal. -/
def SyncE (P : Par ℝ) (U : ℤ) (α β : ℝ) (e : EA ℝ) : Prop :=
  (∀ j k, 1 ≤ j → j ≤ P.jsize → 1 ≤ k → k < P.pksize →
    (combE (e (P.isize + 1, j, k))).y = (crystalE P.isize P.jsize U α β e (P.isize + 1, j, k)).y ∧
    (combE (e (P.isize + 1, j, k))).z = (crystalE P.isize P.jsize U α β e (P.isize + 1, j, k)).z) ∧
  ∀ i k, 1 ≤ i → i ≤ P.isize → 1 ≤ k → k < P.pksize →
    (combE (e (i, P.jsize + 1, k))).x = (crystalE P.isize P.jsize U α β e (i, P.jsize + 1, k)).x ∧
    (combE (e (i, P.jsize + 1, k))).z = (crystalE P.isize P.jsize U α β e (i, P.jsize + 1, k)).z

/-- The same for the magnetic arrays. -/
def SyncH (P : Par ℝ) (U : ℤ) (α β : ℝ) (h : HA ℝ) : Prop :=
  (∀ j k, 1 ≤ j → j ≤ P.jsize → 1 ≤ k → k < P.pksize →
    (combH (h (0, j, k))).y = (crystalH P.isize P.jsize U α β h (0, j, k)).y ∧
    (combH (h (0, j, k))).z = (crystalH P.isize P.jsize U α β h (0, j, k)).z) ∧
  ∀ i k, 1 ≤ i → i ≤ P.isize → 1 ≤ k → k < P.pksize →
    (combH (h (i, 0, k))).x = (crystalH P.isize P.jsize U α β h (i, 0, k)).x ∧
    (combH (h (i, 0, k))).z = (crystalH P.isize P.jsize U α β h (i, 0, k)).z

theorem crystalE_self {I J U : ℤ} (α β : ℝ) (e : EA ℝ) {c : Ix} (hc : InCell I J c) :
    crystalE I J U α β e c = combE (e c) := by
  unfold crystalE
  rw [cellOf_self hc, phaseOf_self α β hc]
  simp [smulE]

theorem crystalH_self {I J U : ℤ} (α β : ℝ) (h : HA ℝ) {c : Ix} (hc : InCell I J c) :
    crystalH I J U α β h c = combH (h c) := by
  unfold crystalH
  rw [cellOf_self hc, phaseOf_self α β hc]
  simp [smulH]

/-- The sizes set by `periodic_boundary` for both directions. -/
def BlochSized (P : Par ℝ) : Prop :=
  1 ≤ P.isize ∧ P.pisize = P.isize + 1 ∧ 1 ≤ P.jsize ∧ P.pjsize = P.jsize + 1

theorem mem_cells_bloch {P : Par ℝ} (hs : BlochSized P) {c : Ix} (hc : InCell P.isize P.jsize c)
    (hk : 1 ≤ c.2.2 ∧ c.2.2 < P.pksize) : c ∈ cells P := by
  obtain ⟨h1, h2, h3, h4⟩ := hs
  obtain ⟨⟨a, b⟩, d, f⟩ := hc
  exact mem_cells.2 ⟨⟨a, by omega⟩, ⟨d, by omega⟩, hk⟩

/-- The loops over the electric cells are the update of the crystal. -/
theorem crystal_loopsE (P : Par ℝ) (U : ℤ) (α β : ℝ) (hs : BlochSized P) (hu : Uniform P)
    (hm : NoMolecule P) (e : EA ℝ) (h : HA ℝ) (hh : SyncH P U α β h) (e' : EA ℝ)
    (he : ∀ c ∈ cells P, e' c = loopsE P h e c) (i j k : ℤ) (hk : 1 ≤ k ∧ k < P.pksize) :
    crystalE P.isize P.jsize U α β e' (i, j, k) =
      stepE (bulk P U) (crystalH P.isize P.jsize U α β h) (i, j, k)
        (crystalE P.isize P.jsize U α β e (i, j, k)) := by
  obtain ⟨hI, hI', hJ, hJ'⟩ := id hs
  obtain ⟨m, n, i', j', hi, hj, rfl, rfl⟩ := exists_cell U hI hJ i j
  rw [crystalE_bloch U α β hI hJ, crystalE_bloch U α β hI hJ,
    stepE_trans P U m n i' j' k hI hJ hm _ _ _ fun i j k => crystalH_bloch U α β hI hJ h m n i j k]
  congr 1
  have hc : InCell P.isize P.jsize (i', j', k) := ⟨hi, hj⟩
  have hmem := mem_cells_bloch hs hc hk
  rw [crystalE_self α β _ hc, crystalE_self α β _ hc, he _ hmem]
  have hsw : loopsE P h e (i', j', k) = (stepE P (fun d => (h d).1) (i', j', k) (e (i', j', k)).1,
      stepIE P (fun d => (h d).2) (i', j', k) (e (i', j', k)).2) := by
    unfold loopsE
    rw [sweep_cells, if_pos hmem, sweep_cells, if_pos hmem]
  rw [hsw, stepE_complex_partial P h _ _ (hm _)]
  have self : ∀ k, crystalH P.isize P.jsize U α β h (i', j', k) = combH (h (i', j', k)) := fun k =>
    crystalH_self α β h ⟨hi, hj⟩
  have left : (crystalH P.isize P.jsize U α β h (i' - 1, j', k)).y = (combH (h (i' - 1, j', k))).y ∧
      (crystalH P.isize P.jsize U α β h (i' - 1, j', k)).z = (combH (h (i' - 1, j', k))).z := by
    by_cases h1 : i' = 1
    · subst h1
      have := hh.1 j' k hj.1 hj.2 hk.1 hk.2
      exact ⟨this.1.symm, this.2.symm⟩
    · rw [crystalH_self α β h (c := (i' - 1, j', k)) ⟨⟨by dsimp only; omega, by dsimp only; omega⟩, hj⟩]
      exact ⟨rfl, rfl⟩
  have below : (crystalH P.isize P.jsize U α β h (i', j' - 1, k)).x = (combH (h (i', j' - 1, k))).x ∧
      (crystalH P.isize P.jsize U α β h (i', j' - 1, k)).z = (combH (h (i', j' - 1, k))).z := by
    by_cases h1 : j' = 1
    · subst h1
      have := hh.2 i' k hi.1 hi.2 hk.1 hk.2
      exact ⟨this.1.symm, this.2.symm⟩
    · rw [crystalH_self α β h (c := (i', j' - 1, k)) ⟨hi, ⟨by dsimp only; omega, by dsimp only; omega⟩⟩]
      exact ⟨rfl, rfl⟩
  symm
  apply stepE_local P U hu _ _ _ hc
  · simp only [curlHx, self, below.2]; simp only [bulk]
  · simp only [curlHy, self, left.2]; simp only [bulk]
  · simp only [curlHz, self, left.1, below.1]; simp only [bulk]

/-- The loops over the magnetic cells are the update of the crystal. -/
theorem crystal_loopsH (P : Par ℝ) (U : ℤ) (α β : ℝ) (hs : BlochSized P) (hu : Uniform P)
    (e : EA ℝ) (h : HA ℝ) (hh : SyncE P U α β e) (h' : HA ℝ)
    (he : ∀ c ∈ cells P, h' c = loopsH P e h c) (i j k : ℤ) (hk : 1 ≤ k ∧ k < P.pksize) :
    crystalH P.isize P.jsize U α β h' (i, j, k) =
      stepH (bulk P U) (crystalE P.isize P.jsize U α β e) (i, j, k)
        (crystalH P.isize P.jsize U α β h (i, j, k)) := by
  obtain ⟨hI, hI', hJ, hJ'⟩ := id hs
  obtain ⟨m, n, i', j', hi, hj, rfl, rfl⟩ := exists_cell U hI hJ i j
  rw [crystalH_bloch U α β hI hJ, crystalH_bloch U α β hI hJ,
    stepH_trans P U m n i' j' k hI hJ _ _ _ fun i j k => crystalE_bloch U α β hI hJ e m n i j k]
  congr 1
  have hc : InCell P.isize P.jsize (i', j', k) := ⟨hi, hj⟩
  have hmem := mem_cells_bloch hs hc hk
  rw [crystalH_self α β _ hc, crystalH_self α β _ hc, he _ hmem]
  have hsw : loopsH P e h (i', j', k) = (stepH P (fun d => (e d).1) (i', j', k) (h (i', j', k)).1,
      stepH P (fun d => (e d).2) (i', j', k) (h (i', j', k)).2) := by
    unfold loopsH
    rw [sweep_cells, if_pos hmem, sweep_cells, if_pos hmem]
  rw [hsw, stepH_complex P e]
  have self : ∀ k, crystalE P.isize P.jsize U α β e (i', j', k) = combE (e (i', j', k)) := fun k =>
    crystalE_self α β e ⟨hi, hj⟩
  have right : (crystalE P.isize P.jsize U α β e (i' + 1, j', k)).y = (combE (e (i' + 1, j', k))).y ∧
      (crystalE P.isize P.jsize U α β e (i' + 1, j', k)).z = (combE (e (i' + 1, j', k))).z := by
    by_cases h1 : i' = P.isize
    · subst h1
      have := hh.1 j' k hj.1 hj.2 hk.1 hk.2
      exact ⟨this.1.symm, this.2.symm⟩
    · rw [crystalE_self α β e (c := (i' + 1, j', k)) ⟨⟨by dsimp only; omega, by dsimp only; omega⟩, hj⟩]
      exact ⟨rfl, rfl⟩
  have above : (crystalE P.isize P.jsize U α β e (i', j' + 1, k)).x = (combE (e (i', j' + 1, k))).x ∧
      (crystalE P.isize P.jsize U α β e (i', j' + 1, k)).z = (combE (e (i', j' + 1, k))).z := by
    by_cases h1 : j' = P.jsize
    · subst h1
      have := hh.2 i' k hi.1 hi.2 hk.1 hk.2
      exact ⟨this.1.symm, this.2.symm⟩
    · rw [crystalE_self α β e (c := (i', j' + 1, k)) ⟨hi, ⟨by dsimp only; omega, by dsimp only; omega⟩⟩]
      exact ⟨rfl, rfl⟩
  symm
  apply stepH_local P U hu _ _ _ hc
  · simp only [curlEx, self, above.2]; simp only [bulk]
  · simp only [curlEy, self, right.2]; simp only [bulk]
  · simp only [curlEz, self, right.1, above.1]; simp only [bulk]

/-! ### The boundary updates -/

/-- A product with the phase of an angle, as the code computes it. -/
theorem forth_phase (θ a b : ℝ) :
    cx (a * Real.cos θ - b * Real.sin θ) (a * Real.sin θ + b * Real.cos θ) = exp (θ * I) * cx a b := by
  rw [exp_mul_I, ← ofReal_cos, ← ofReal_sin]
  simp only [cx]
  push_cast
  linear_combination (-(Complex.sin θ) * b) * I_sq

/-- A product with the conjugate phase. -/
theorem back_phase (θ a b : ℝ) :
    cx (a * Real.cos θ + b * Real.sin θ) (-a * Real.sin θ + b * Real.cos θ) = exp (-(θ * I)) * cx a b := by
  have := forth_phase (-θ) a b
  rw [Real.cos_neg, Real.sin_neg] at this
  rw [show -((θ : ℂ) * I) = ((-θ : ℝ) : ℂ) * I by push_cast; ring, ← this]
  congr 1 <;> ring

theorem combE_forthEyz (θ : ℝ) (d s : EF ℝ × EF ℝ) :
    (combE (forthEyz (Real.cos θ) (Real.sin θ) d s)).y = exp (θ * I) * (combE s).y ∧
    (combE (forthEyz (Real.cos θ) (Real.sin θ) d s)).z = exp (θ * I) * (combE s).z :=
  ⟨forth_phase θ _ _, forth_phase θ _ _⟩

theorem combE_forthExz (θ : ℝ) (d s : EF ℝ × EF ℝ) :
    (combE (forthExz (Real.cos θ) (Real.sin θ) d s)).x = exp (θ * I) * (combE s).x ∧
    (combE (forthExz (Real.cos θ) (Real.sin θ) d s)).z = exp (θ * I) * (combE s).z :=
  ⟨forth_phase θ _ _, forth_phase θ _ _⟩

theorem combH_backHyz (θ : ℝ) (d s : HF ℝ × HF ℝ) :
    (combH (backHyz (Real.cos θ) (Real.sin θ) d s)).y = exp (-(θ * I)) * (combH s).y ∧
    (combH (backHyz (Real.cos θ) (Real.sin θ) d s)).z = exp (-(θ * I)) * (combH s).z :=
  ⟨back_phase θ _ _, back_phase θ _ _⟩

theorem combH_backHxz (θ : ℝ) (d s : HF ℝ × HF ℝ) :
    (combH (backHxz (Real.cos θ) (Real.sin θ) d s)).x = exp (-(θ * I)) * (combH s).x ∧
    (combH (backHxz (Real.cos θ) (Real.sin θ) d s)).z = exp (-(θ * I)) * (combH s).z :=
  ⟨back_phase θ _ _, back_phase θ _ _⟩

theorem mem_pairsFrom {a p q : ℤ} {d : ℤ × ℤ} :
    d ∈ pairsFrom a p q ↔ (a ≤ d.1 ∧ d.1 < p) ∧ 1 ≤ d.2 ∧ d.2 < q := by
  obtain ⟨j, k⟩ := d
  simp only [pairsFrom, List.mem_flatMap, List.mem_map, mem_irange, Prod.mk.injEq]
  constructor
  · rintro ⟨j', hj, k', hk, rfl, rfl⟩; exact ⟨hj, hk⟩
  · rintro ⟨h1, h2⟩; exact ⟨j, h1, k, h2, rfl, rfl⟩

theorem blochEx_apply (P : Par ℝ) (C S : ℝ) (h1 : 1 ≤ P.isize) (e : EA ℝ) :
    (∀ j k, 1 ≤ j → j < P.pjsize → 1 ≤ k → k < P.pksize →
      blochEx P C S e (P.isize + 1, j, k) = forthEyz C S (e (P.isize + 1, j, k)) (e (1, j, k))) ∧
    ∀ c : Ix, c.1 ≠ 0 → c.1 ≠ P.isize + 1 → blochEx P C S e c = e c := by
  obtain ⟨_, k2, k3⟩ := copies_pairs (pairs P.pjsize P.pksize) (fun jk => (0, jk))
    (fun jk => (P.isize + 1, jk)) (fun jk => (P.isize, jk)) (fun jk => (1, jk))
    (backEx C S) (forthEyz C S)
    (fun _ _ h => (Prod.mk.inj h).2) (fun _ _ h => (Prod.mk.inj h).2)
    (fun t u h => by have := (Prod.mk.inj h).1; omega) (fun t u h => by have := (Prod.mk.inj h).1; omega)
    (fun t u h => by have := (Prod.mk.inj h).1; omega) (fun t u h => by have := (Prod.mk.inj h).1; omega)
    (fun t u h => by have := (Prod.mk.inj h).1; omega) (fun _ _ => rfl) (fun _ _ => rfl) e
  refine ⟨fun j k a b c d => k2 (j, k) (mem_pairs.2 ⟨⟨a, b⟩, c, d⟩), fun c h0 hn => k3 c fun t _ => ⟨?_, ?_⟩⟩
  · rintro rfl; exact h0 rfl
  · rintro rfl; exact hn rfl

theorem blochHx_apply (P : Par ℝ) (C S : ℝ) (h1 : 1 ≤ P.isize) (h : HA ℝ) :
    (∀ j k, 1 ≤ j → j < P.pjsize → 1 ≤ k → k < P.pksize →
      blochHx P C S h (0, j, k) = backHyz C S (h (0, j, k)) (h (P.isize, j, k))) ∧
    ∀ c : Ix, c.1 ≠ 0 → c.1 ≠ P.isize + 1 → blochHx P C S h c = h c := by
  obtain ⟨_, k2, k3⟩ := copies_pairs (pairs P.pjsize P.pksize) (fun jk => (P.isize + 1, jk))
    (fun jk => (0, jk)) (fun jk => (1, jk)) (fun jk => (P.isize, jk))
    (forthHx C S) (backHyz C S)
    (fun _ _ h => (Prod.mk.inj h).2) (fun _ _ h => (Prod.mk.inj h).2)
    (fun t u h => by have := (Prod.mk.inj h).1; omega) (fun t u h => by have := (Prod.mk.inj h).1; omega)
    (fun t u h => by have := (Prod.mk.inj h).1; omega) (fun t u h => by have := (Prod.mk.inj h).1; omega)
    (fun t u h => by have := (Prod.mk.inj h).1; omega) (fun _ _ => rfl) (fun _ _ => rfl) h
  refine ⟨fun j k a b c d => k2 (j, k) (mem_pairs.2 ⟨⟨a, b⟩, c, d⟩), fun c h0 hn => k3 c fun t _ => ⟨?_, ?_⟩⟩
  · rintro rfl; exact hn rfl
  · rintro rfl; exact h0 rfl

theorem blochEy_apply (P : Par ℝ) (C S : ℝ) (h1 : 1 ≤ P.jsize) (e : EA ℝ) :
    (∀ i k, 1 ≤ i → i < P.pisize → 1 ≤ k → k < P.pksize →
      blochEy P C S e (i, P.jsize + 1, k) = forthExz C S (e (i, P.jsize + 1, k)) (e (i, 1, k))) ∧
    ∀ c : Ix, c.2.1 ≠ 0 → c.2.1 ≠ P.jsize + 1 → blochEy P C S e c = e c := by
  obtain ⟨_, k2, k3⟩ := copies_pairs (pairs P.pisize P.pksize) (fun t => (t.1, 0, t.2))
    (fun t => (t.1, P.jsize + 1, t.2)) (fun t => (t.1, P.jsize, t.2)) (fun t => (t.1, 1, t.2))
    (backEy C S) (forthExz C S)
    (mk_inj _) (mk_inj _) (mk_ne (by omega)) (mk_ne (by omega)) (mk_ne (by omega)) (mk_ne (by omega))
    (mk_ne (by omega)) (fun _ _ => rfl) (fun _ _ => rfl) e
  refine ⟨fun j k a b c d => k2 (j, k) (mem_pairs.2 ⟨⟨a, b⟩, c, d⟩), fun c h0 hn => k3 c fun t _ => ⟨?_, ?_⟩⟩
  · rintro rfl; exact h0 rfl
  · rintro rfl; exact hn rfl

theorem blochHy_apply (P : Par ℝ) (C S : ℝ) (h1 : 1 ≤ P.jsize) (h : HA ℝ) :
    (∀ i k, 1 ≤ i → i < P.pisize → 1 ≤ k → k < P.pksize →
      blochHy P C S h (i, 0, k) = backHxz C S (h (i, 0, k)) (h (i, P.jsize, k))) ∧
    ∀ c : Ix, c.2.1 ≠ 0 → c.2.1 ≠ P.jsize + 1 → blochHy P C S h c = h c := by
  obtain ⟨_, k2, k3⟩ := copies_pairs (pairs P.pisize P.pksize) (fun t => (t.1, P.jsize + 1, t.2))
    (fun t => (t.1, 0, t.2)) (fun t => (t.1, 1, t.2)) (fun t => (t.1, P.jsize, t.2))
    (forthHy C S) (backHxz C S)
    (mk_inj _) (mk_inj _) (mk_ne (by omega)) (mk_ne (by omega)) (mk_ne (by omega)) (mk_ne (by omega))
    (mk_ne (by omega)) (fun _ _ => rfl) (fun _ _ => rfl) h
  refine ⟨fun j k a b c d => k2 (j, k) (mem_pairs.2 ⟨⟨a, b⟩, c, d⟩), fun c h0 hn => k3 c fun t _ => ⟨?_, ?_⟩⟩
  · rintro rfl; exact hn rfl
  · rintro rfl; exact h0 rfl

theorem sh_ne {a b : ℤ} (p q : ℤ) (hab : a ≠ b) (t u : ℤ × ℤ) :
    ((t.1 + p, a, t.2) : Ix) ≠ (u.1 + q, b, u.2) := fun h => by
  simp only [Prod.mk.injEq] at h; exact hab h.2.1

theorem sh_inj (a p : ℤ) : Function.Injective fun t : ℤ × ℤ => ((t.1 + p, a, t.2) : Ix) := fun t u h => by
  simp only [Prod.mk.injEq] at h; exact Prod.ext (by omega) h.2.2

/-- One of the two loops of the wall of the triangular lattice. -/
theorem wall_loop {V : Type*} (l : List (ℤ × ℤ)) (J U : ℤ) (hJ : 1 ≤ J) (f g : V → V → V)
    (hf : ∀ d s, f (f d s) s = f d s) (hg : ∀ d s, g (g d s) s = g d s) (a : Ix → V) :
    (∀ t ∈ l, copies (l.flatMap fun t => [((t.1, 0, t.2), (t.1 + U, J, t.2), f),
      ((t.1 + U, J + 1, t.2), (t.1, 1, t.2), g)]) a (t.1 + U, J + 1, t.2) =
        g (a (t.1 + U, J + 1, t.2)) (a (t.1, 1, t.2))) ∧
    (∀ i k, (∀ t ∈ l, (i, k) ≠ (t.1 + U, t.2)) → copies (l.flatMap fun t =>
      [((t.1, 0, t.2), (t.1 + U, J, t.2), f), ((t.1 + U, J + 1, t.2), (t.1, 1, t.2), g)]) a
        (i, J + 1, k) = a (i, J + 1, k)) ∧
    ∀ c : Ix, c.2.1 ≠ 0 → c.2.1 ≠ J + 1 → copies (l.flatMap fun t =>
      [((t.1, 0, t.2), (t.1 + U, J, t.2), f), ((t.1 + U, J + 1, t.2), (t.1, 1, t.2), g)]) a c = a c := by
  obtain ⟨k1, k2, k3⟩ := copies_pairs l (fun t => (t.1, 0, t.2)) (fun t => (t.1 + U, J + 1, t.2))
    (fun t => (t.1 + U, J, t.2)) (fun t => (t.1, 1, t.2)) f g (mk_inj _) (sh_inj _ _)
    (by intro t u h; simp only [Prod.mk.injEq] at h; omega)
    (by intro t u h; simp only [Prod.mk.injEq] at h; omega)
    (by intro t u h; simp only [Prod.mk.injEq] at h; omega)
    (by intro t u h; simp only [Prod.mk.injEq] at h; omega)
    (by intro t u h; simp only [Prod.mk.injEq] at h; omega) hf hg a
  refine ⟨k2, fun i k h => k3 _ fun t ht => ⟨?_, ?_⟩, fun c h0 hn => k3 c fun t _ => ⟨?_, ?_⟩⟩
  · intro h'; simp only [Prod.mk.injEq] at h'; omega
  · intro h'; simp only [Prod.mk.injEq] at h'
    exact h t ht (by rw [h'.1, h'.2.2])
  · rintro rfl; exact h0 rfl
  · rintro rfl; exact hn rfl

/-- The same loop for the magnetic field. -/
theorem wall_loop' {V : Type*} (l : List (ℤ × ℤ)) (J U : ℤ) (hJ : 1 ≤ J) (f g : V → V → V)
    (hf : ∀ d s, f (f d s) s = f d s) (hg : ∀ d s, g (g d s) s = g d s) (a : Ix → V) :
    (∀ t ∈ l, copies (l.flatMap fun t => [((t.1 + U, J + 1, t.2), (t.1, 1, t.2), g),
      ((t.1, 0, t.2), (t.1 + U, J, t.2), f)]) a (t.1, 0, t.2) =
        f (a (t.1, 0, t.2)) (a (t.1 + U, J, t.2))) ∧
    (∀ i k, (∀ t ∈ l, (i, k) ≠ t) → copies (l.flatMap fun t =>
      [((t.1 + U, J + 1, t.2), (t.1, 1, t.2), g), ((t.1, 0, t.2), (t.1 + U, J, t.2), f)]) a
        (i, 0, k) = a (i, 0, k)) ∧
    ∀ c : Ix, c.2.1 ≠ 0 → c.2.1 ≠ J + 1 → copies (l.flatMap fun t =>
      [((t.1 + U, J + 1, t.2), (t.1, 1, t.2), g), ((t.1, 0, t.2), (t.1 + U, J, t.2), f)]) a c = a c := by
  obtain ⟨k1, k2, k3⟩ := copies_pairs l (fun t => (t.1 + U, J + 1, t.2)) (fun t => (t.1, 0, t.2))
    (fun t => (t.1, 1, t.2)) (fun t => (t.1 + U, J, t.2)) g f (sh_inj _ _) (mk_inj _)
    (by intro t u h; simp only [Prod.mk.injEq] at h; omega)
    (by intro t u h; simp only [Prod.mk.injEq] at h; omega)
    (by intro t u h; simp only [Prod.mk.injEq] at h; omega)
    (by intro t u h; simp only [Prod.mk.injEq] at h; omega)
    (by intro t u h; simp only [Prod.mk.injEq] at h; omega) hg hf a
  refine ⟨k2, fun i k h => k3 _ fun t ht => ⟨?_, ?_⟩, fun c h0 hn => k3 c fun t _ => ⟨?_, ?_⟩⟩
  · intro h'; simp only [Prod.mk.injEq] at h'; omega
  · intro h'; simp only [Prod.mk.injEq] at h'
    exact h t ht (Prod.ext h'.1 h'.2.2)
  · rintro rfl; exact hn rfl
  · rintro rfl; exact h0 rfl

theorem blochEwall_apply (P : Par ℝ) (C1 S1 C2 S2 : ℝ) (h1 : 1 ≤ P.jsize) (hp : P.pisize = P.isize + 1)
    (e : EA ℝ) :
    (∀ U, P.isize = 2 * U → ∀ i k, 1 ≤ i → i ≤ P.isize → 1 ≤ k → k < P.pksize →
      ∃ d, blochEwall P C1 S1 C2 S2 e (i, P.jsize + 1, k) =
        if U < i then forthExz C1 S1 d (e (i - U, 1, k)) else forthExz C2 S2 d (e (i + U, 1, k))) ∧
    (∀ U, P.isize = 2 * U + 1 → 1 ≤ U → ∀ k, blochEwall P C1 S1 C2 S2 e (1, P.jsize + 1, k) =
      e (1, P.jsize + 1, k)) ∧
    ∀ c : Ix, c.2.1 ≠ 0 → c.2.1 ≠ P.jsize + 1 → blochEwall P C1 S1 C2 S2 e c = e c := by
  unfold blochEwall
  simp only [sub_eq_add_neg (_ : ℤ) (P.isize / 2)]
  obtain ⟨a1, a2, a3⟩ := wall_loop (pairsFrom 1 (P.pisize + -(P.isize / 2)) P.pksize) P.jsize (P.isize / 2) h1
    (backEy C1 S1) (forthExz C1 S1) (fun _ _ => rfl) (fun _ _ => rfl) e
  generalize copies _ e = e1 at *
  obtain ⟨b1, b2, b3⟩ := wall_loop (pairsFrom (P.pisize + -(P.isize / 2)) P.pisize P.pksize) P.jsize
    (-(P.isize / 2)) h1 (backEy C2 S2) (forthExz C2 S2) (fun _ _ => rfl) (fun _ _ => rfl) e1
  generalize copies _ e1 = e2 at *
  refine ⟨fun U hU i k hi hi' hk hk' => ?_, fun U hU hU1 k => ?_, fun c h0 hn => (b3 c h0 hn).trans (a3 c h0 hn)⟩
  · have hU2 : P.isize / 2 = U := by omega
    rw [hU2] at a1 a2 b1 b2
    by_cases hh : U < i
    · refine ⟨e (i, P.jsize + 1, k), ?_⟩
      rw [if_pos hh, b2 i k (by
        intro t ht h
        have := mem_pairsFrom.1 ht
        simp only [Prod.mk.injEq] at h
        omega)]
      have := a1 (i - U, k) (mem_pairsFrom.2 ⟨⟨by dsimp only; omega, by dsimp only; omega⟩, hk, hk'⟩)
      dsimp only at this
      rwa [sub_add_cancel] at this
    · refine ⟨e1 (i, P.jsize + 1, k), ?_⟩
      rw [if_neg hh]
      have := b1 (i + U, k) (mem_pairsFrom.2 ⟨⟨by dsimp only; omega, by dsimp only; omega⟩, hk, hk'⟩)
      dsimp only at this
      rw [add_neg_cancel_right, a3 (i + U, 1, k) (by simp) (by dsimp only; omega)] at this
      exact this
  · rw [b2 1 k (by
        intro t ht h
        have := mem_pairsFrom.1 ht
        simp only [Prod.mk.injEq] at h
        omega), a2 1 k (by
        intro t ht h
        have := mem_pairsFrom.1 ht
        simp only [Prod.mk.injEq] at h
        omega)]

theorem blochHwall_apply (P : Par ℝ) (C1 S1 C2 S2 : ℝ) (h1 : 1 ≤ P.jsize) (hp : P.pisize = P.isize + 1)
    (h : HA ℝ) :
    (∀ U, P.isize = 2 * U → ∀ i k, 1 ≤ i → i ≤ P.isize → 1 ≤ k → k < P.pksize →
      ∃ d, blochHwall P C1 S1 C2 S2 h (i, 0, k) =
        if i ≤ U then backHxz C1 S1 d (h (i + U, P.jsize, k)) else backHxz C2 S2 d (h (i - U, P.jsize, k))) ∧
    ∀ c : Ix, c.2.1 ≠ 0 → c.2.1 ≠ P.jsize + 1 → blochHwall P C1 S1 C2 S2 h c = h c := by
  unfold blochHwall
  simp only [sub_eq_add_neg (_ : ℤ) (P.isize / 2)]
  obtain ⟨a1, a2, a3⟩ := wall_loop' (pairsFrom 1 (P.pisize + -(P.isize / 2)) P.pksize) P.jsize (P.isize / 2) h1
    (backHxz C1 S1) (forthHy C1 S1) (fun _ _ => rfl) (fun _ _ => rfl) h
  generalize copies _ h = e1 at *
  obtain ⟨b1, b2, b3⟩ := wall_loop' (pairsFrom (P.pisize + -(P.isize / 2)) P.pisize P.pksize) P.jsize
    (-(P.isize / 2)) h1 (backHxz C2 S2) (forthHy C2 S2) (fun _ _ => rfl) (fun _ _ => rfl) e1
  generalize copies _ e1 = e2 at *
  refine ⟨fun U hU i k hi hi' hk hk' => ?_, fun c h0 hn => (b3 c h0 hn).trans (a3 c h0 hn)⟩
  have hU2 : P.isize / 2 = U := by omega
  rw [hU2] at a1 a2 b1 b2
  by_cases hh : i ≤ U
  · refine ⟨h (i, 0, k), ?_⟩
    rw [if_pos hh, b2 i k (by
      intro t ht h'
      have := mem_pairsFrom.1 ht
      rw [← h'] at this
      dsimp only at this
      omega)]
    exact a1 (i, k) (mem_pairsFrom.2 ⟨⟨hi, by dsimp only; omega⟩, hk, hk'⟩)
  · refine ⟨e1 (i, 0, k), ?_⟩
    rw [if_neg hh]
    have := b1 (i, k) (mem_pairsFrom.2 ⟨⟨by dsimp only; omega, by dsimp only; omega⟩, hk, hk'⟩)
    dsimp only at this
    rw [a3 (i + -U, P.jsize, k) (by dsimp only; omega) (by dsimp only; omega)] at this
    exact this

/-! ### The whole step -/

theorem crystalE_at {I J : ℤ} (U : ℤ) (α β : ℝ) (hI : 1 ≤ I) (hJ : 1 ≤ J) (e : EA ℝ) {i j : ℤ}
    (m n i' j' k : ℤ) (hi : 1 ≤ i' ∧ i' ≤ I) (hj : 1 ≤ j' ∧ j' ≤ J) (h1 : i = i' + m * I + n * U)
    (h2 : j = j' + n * J) :
    crystalE I J U α β e (i, j, k) = smulE (blochPhase α β m n) (combE (e (i', j', k))) := by
  rw [h1, h2, crystalE_bloch U α β hI hJ, crystalE_self α β e ⟨hi, hj⟩]

theorem crystalH_at {I J : ℤ} (U : ℤ) (α β : ℝ) (hI : 1 ≤ I) (hJ : 1 ≤ J) (h : HA ℝ) {i j : ℤ}
    (m n i' j' k : ℤ) (hi : 1 ≤ i' ∧ i' ≤ I) (hj : 1 ≤ j' ∧ j' ≤ J) (h1 : i = i' + m * I + n * U)
    (h2 : j = j' + n * J) :
    crystalH I J U α β h (i, j, k) = smulH (blochPhase α β m n) (combH (h (i', j', k))) := by
  rw [h1, h2, crystalH_bloch U α β hI hJ, crystalH_self α β h ⟨hi, hj⟩]

theorem phase_eq (α β θ : ℝ) (m n : ℤ) (h : θ = 2 * Real.pi * (α * m + β * n)) :
    blochPhase α β m n = exp (θ * I) := by
  unfold blochPhase
  rw [h]
  push_cast
  ring_nf

theorem phase_eq' (α β θ : ℝ) (m n : ℤ) (h : -θ = 2 * Real.pi * (α * m + β * n)) :
    blochPhase α β m n = exp (-(θ * I)) := by
  rw [phase_eq α β (-θ) m n h]
  push_cast
  ring_nf

/-- **C156**: for the rectangular lattice the step in the unit cell is the step of the whole crystal, for
every wave vector and every distribution of dielectrics, metals and absorbing layers along `z`, and
afterwards the boundary values are again those of the crystal. -/
theorem bloch_step (P : Par ℝ) (kx ky : ℝ) (hs : BlochSized P) (hu : Uniform P) (hm : NoMolecule P)
    (s : EA ℝ × HA ℝ) (hh : SyncH P 0 kx ky s.2) :
    (∀ i j k, 1 ≤ k ∧ k < P.pksize →
      crystalE P.isize P.jsize 0 kx ky (propagateBloch P kx ky s).1 (i, j, k) =
        stepE (bulk P 0) (crystalH P.isize P.jsize 0 kx ky s.2) (i, j, k)
          (crystalE P.isize P.jsize 0 kx ky s.1 (i, j, k)) ∧
      crystalH P.isize P.jsize 0 kx ky (propagateBloch P kx ky s).2 (i, j, k) =
        stepH (bulk P 0) (crystalE P.isize P.jsize 0 kx ky (propagateBloch P kx ky s).1) (i, j, k)
          (crystalH P.isize P.jsize 0 kx ky s.2 (i, j, k))) ∧
    SyncH P 0 kx ky (propagateBloch P kx ky s).2 := by
  obtain ⟨hI, hI', hJ, hJ'⟩ := id hs
  set θx := kx * 2 * Real.pi with hθx
  set θy := ky * 2 * Real.pi with hθy
  obtain ⟨e0, he0⟩ : ∃ e0, e0 = loopsE P s.2 s.1 := ⟨_, rfl⟩
  obtain ⟨e1, he1⟩ : ∃ e1, e1 = blochEx P (Real.cos θx) (Real.sin θx) e0 := ⟨_, rfl⟩
  obtain ⟨e2, he2⟩ : ∃ e2, e2 = blochEy P (Real.cos θy) (Real.sin θy) e1 := ⟨_, rfl⟩
  obtain ⟨h0, hh0⟩ : ∃ h0, h0 = loopsH P e2 s.2 := ⟨_, rfl⟩
  obtain ⟨h1, hh1⟩ : ∃ h1, h1 = blochHx P (Real.cos θx) (Real.sin θx) h0 := ⟨_, rfl⟩
  obtain ⟨h2, hh2⟩ : ∃ h2, h2 = blochHy P (Real.cos θy) (Real.sin θy) h1 := ⟨_, rfl⟩
  have hprop : propagateBloch P kx ky s = (e2, h2) := by
    rw [hh2, hh1, hh0, he2, he1, he0]; rfl
  rw [hprop]
  obtain ⟨ax, ax'⟩ := blochEx_apply P (Real.cos θx) (Real.sin θx) hI e0
  obtain ⟨ay, ay'⟩ := blochEy_apply P (Real.cos θy) (Real.sin θy) hJ e1
  obtain ⟨bx, bx'⟩ := blochHx_apply P (Real.cos θx) (Real.sin θx) hI h0
  obtain ⟨by_, by'⟩ := blochHy_apply P (Real.cos θy) (Real.sin θy) hJ h1
  rw [← he1] at ax ax'
  rw [← he2] at ay ay'
  rw [← hh1] at bx bx'
  rw [← hh2] at by_ by'
  have ec : ∀ c : Ix, InCell P.isize P.jsize c → e2 c = e0 c := fun c hc => by
    rw [ay' c (by have := hc.2; omega) (by have := hc.2; omega),
      ax' c (by have := hc.1; omega) (by have := hc.1; omega)]
  have hc : ∀ c : Ix, InCell P.isize P.jsize c → h2 c = h0 c := fun c hc => by
    rw [by' c (by have := hc.2; omega) (by have := hc.2; omega),
      bx' c (by have := hc.1; omega) (by have := hc.1; omega)]
  have incell : ∀ c ∈ cells P, InCell P.isize P.jsize c := fun c h => by
    have := mem_cells.1 h
    exact ⟨⟨this.1.1, by omega⟩, this.2.1.1, by omega⟩
  have sE : SyncE P 0 kx ky e2 := by
    constructor
    · intro j k j1 j2 k1 k2
      rw [crystalE_at 0 kx ky hI hJ e2 (i := P.isize + 1) 1 0 1 j k ⟨le_rfl, hI⟩ ⟨j1, j2⟩ (by ring) (by ring),
        ec (1, j, k) ⟨⟨le_rfl, hI⟩, j1, j2⟩, ay' _ (by dsimp only; omega) (by dsimp only; omega),
        ax j k j1 (by omega) k1 k2, phase_eq kx ky θx 1 0 (by rw [hθx]; push_cast; ring)]
      exact combE_forthEyz θx _ _
    · intro i k i1 i2 k1 k2
      rw [crystalE_at 0 kx ky hI hJ e2 (j := P.jsize + 1) 0 1 i 1 k ⟨i1, i2⟩ ⟨le_rfl, hJ⟩ (by ring) (by ring),
        ec (i, 1, k) ⟨⟨i1, i2⟩, le_rfl, hJ⟩, ay i k i1 (by omega) k1 k2,
        ax' (i, 1, k) (by dsimp only; omega) (by dsimp only; omega),
        phase_eq kx ky θy 0 1 (by rw [hθy]; push_cast; ring)]
      exact combE_forthExz θy _ _
  refine ⟨fun i j k hk => ⟨?_, ?_⟩, ?_, ?_⟩
  · exact crystal_loopsE P 0 kx ky hs hu hm s.1 s.2 hh e2 (fun c hc => by rw [ec c (incell c hc), he0]) i j k hk
  · exact crystal_loopsH P 0 kx ky hs hu e2 s.2 sE h2 (fun c hc' => by rw [hc c (incell c hc'), hh0]) i j k hk
  · intro j k j1 j2 k1 k2
    dsimp only
    rw [crystalH_at 0 kx ky hI hJ h2 (i := 0) (-1) 0 P.isize j k ⟨hI, le_rfl⟩ ⟨j1, j2⟩ (by ring) (by ring),
      hc (P.isize, j, k) ⟨⟨hI, le_rfl⟩, j1, j2⟩, by' _ (by dsimp only; omega) (by dsimp only; omega),
      bx j k j1 (by omega) k1 k2, phase_eq' kx ky θx (-1) 0 (by rw [hθx]; push_cast; ring)]
    exact combH_backHyz θx _ _
  · intro i k i1 i2 k1 k2
    dsimp only
    rw [crystalH_at 0 kx ky hI hJ h2 (j := 0) 0 (-1) i P.jsize k ⟨i1, i2⟩ ⟨hJ, le_rfl⟩ (by ring) (by ring),
      hc (i, P.jsize, k) ⟨⟨i1, i2⟩, hJ, le_rfl⟩, by_ i k i1 (by omega) k1 k2,
      bx' (i, P.jsize, k) (by dsimp only; omega) (by dsimp only; omega),
      phase_eq' kx ky θy 0 (-1) (by rw [hθy]; push_cast; ring)]
    exact combH_backHxz θy _ _

/-- **C156**: for the triangular lattice, whose second lattice vector is half a cell further along `x`,
the same holds when the number of cells along `x` is even. -/
theorem tri_step_partial (P : Par ℝ) (kx ky : ℝ) (hs : BlochSized P) (hu : Uniform P) (hm : NoMolecule P)
    (U : ℤ) (hU : P.isize = 2 * U) (s : EA ℝ × HA ℝ) (hh : SyncH P U kx (kx / 2 + ky) s.2) :
    (∀ i j k, 1 ≤ k ∧ k < P.pksize →
      crystalE P.isize P.jsize U kx (kx / 2 + ky) (propagateTri P kx ky s).1 (i, j, k) =
        stepE (bulk P U) (crystalH P.isize P.jsize U kx (kx / 2 + ky) s.2) (i, j, k)
          (crystalE P.isize P.jsize U kx (kx / 2 + ky) s.1 (i, j, k)) ∧
      crystalH P.isize P.jsize U kx (kx / 2 + ky) (propagateTri P kx ky s).2 (i, j, k) =
        stepH (bulk P U) (crystalE P.isize P.jsize U kx (kx / 2 + ky) (propagateTri P kx ky s).1) (i, j, k)
          (crystalH P.isize P.jsize U kx (kx / 2 + ky) s.2 (i, j, k))) ∧
    SyncH P U kx (kx / 2 + ky) (propagateTri P kx ky s).2 := by
  obtain ⟨hI, hI', hJ, hJ'⟩ := id hs
  set θx := kx * 2 * Real.pi with hθx
  set θ1 := (1 / 2 * kx + ky) * 2 * Real.pi with hθ1
  set θ2 := (-(1 / 2) * kx + ky) * 2 * Real.pi with hθ2
  obtain ⟨β, hβ⟩ : ∃ β, β = kx / 2 + ky := ⟨_, rfl⟩
  rw [← hβ] at hh ⊢
  obtain ⟨e0, he0⟩ : ∃ e0, e0 = loopsE P s.2 s.1 := ⟨_, rfl⟩
  obtain ⟨e1, he1⟩ : ∃ e1, e1 = blochEx P (Real.cos θx) (Real.sin θx) e0 := ⟨_, rfl⟩
  obtain ⟨e2, he2⟩ : ∃ e2, e2 = blochEwall P (Real.cos θ1) (Real.sin θ1) (Real.cos θ2) (Real.sin θ2) e1 :=
    ⟨_, rfl⟩
  obtain ⟨h0, hh0⟩ : ∃ h0, h0 = loopsH P e2 s.2 := ⟨_, rfl⟩
  obtain ⟨h1, hh1⟩ : ∃ h1, h1 = blochHx P (Real.cos θx) (Real.sin θx) h0 := ⟨_, rfl⟩
  obtain ⟨h2, hh2⟩ : ∃ h2, h2 = blochHwall P (Real.cos θ1) (Real.sin θ1) (Real.cos θ2) (Real.sin θ2) h1 :=
    ⟨_, rfl⟩
  have hprop : propagateTri P kx ky s = (e2, h2) := by
    rw [hh2, hh1, hh0, he2, he1, he0]; rfl
  rw [hprop]
  obtain ⟨ax, ax'⟩ := blochEx_apply P (Real.cos θx) (Real.sin θx) hI e0
  obtain ⟨ay, -, ay'⟩ := blochEwall_apply P (Real.cos θ1) (Real.sin θ1) (Real.cos θ2) (Real.sin θ2) hJ hI' e1
  obtain ⟨bx, bx'⟩ := blochHx_apply P (Real.cos θx) (Real.sin θx) hI h0
  obtain ⟨by_, by'⟩ := blochHwall_apply P (Real.cos θ1) (Real.sin θ1) (Real.cos θ2) (Real.sin θ2) hJ hI' h1
  rw [← he1] at ax ax'
  rw [← he2] at ay ay'
  rw [← hh1] at bx bx'
  rw [← hh2] at by_ by'
  have ec : ∀ c : Ix, InCell P.isize P.jsize c → e2 c = e0 c := fun c hc => by
    rw [ay' c (by have := hc.2; omega) (by have := hc.2; omega),
      ax' c (by have := hc.1; omega) (by have := hc.1; omega)]
  have hc : ∀ c : Ix, InCell P.isize P.jsize c → h2 c = h0 c := fun c hc => by
    rw [by' c (by have := hc.2; omega) (by have := hc.2; omega),
      bx' c (by have := hc.1; omega) (by have := hc.1; omega)]
  have incell : ∀ c ∈ cells P, InCell P.isize P.jsize c := fun c h => by
    have := mem_cells.1 h
    exact ⟨⟨this.1.1, by omega⟩, this.2.1.1, by omega⟩
  have sE : SyncE P U kx β e2 := by
    constructor
    · intro j k j1 j2 k1 k2
      rw [crystalE_at U kx β hI hJ e2 (i := P.isize + 1) 1 0 1 j k ⟨le_rfl, hI⟩ ⟨j1, j2⟩ (by ring) (by ring),
        ec (1, j, k) ⟨⟨le_rfl, hI⟩, j1, j2⟩, ay' _ (by dsimp only; omega) (by dsimp only; omega),
        ax j k j1 (by omega) k1 k2, phase_eq kx β θx 1 0 (by rw [hθx]; push_cast; ring)]
      exact combE_forthEyz θx _ _
    · intro i k i1 i2 k1 k2
      obtain ⟨d, hd⟩ := ay U hU i k i1 i2 k1 k2
      rw [hd]
      by_cases hi : U < i
      · rw [if_pos hi, crystalE_at U kx β hI hJ e2 (i := i) (j := P.jsize + 1) 0 1 (i - U) 1 k
            ⟨by omega, by omega⟩ ⟨le_rfl, hJ⟩ (by ring) (by ring),
          ec (i - U, 1, k) ⟨⟨by dsimp only; omega, by dsimp only; omega⟩, le_rfl, hJ⟩,
          ax' (i - U, 1, k) (by dsimp only; omega) (by dsimp only; omega),
          phase_eq kx β θ1 0 1 (by rw [hθ1, hβ]; push_cast; ring)]
        exact combE_forthExz θ1 _ _
      · rw [if_neg hi, crystalE_at U kx β hI hJ e2 (i := i) (j := P.jsize + 1) (-1) 1 (i + U) 1 k
            ⟨by omega, by omega⟩ ⟨le_rfl, hJ⟩ (by rw [hU]; ring) (by ring),
          ec (i + U, 1, k) ⟨⟨by dsimp only; omega, by dsimp only; omega⟩, le_rfl, hJ⟩,
          ax' (i + U, 1, k) (by dsimp only; omega) (by dsimp only; omega),
          phase_eq kx β θ2 (-1) 1 (by rw [hθ2, hβ]; push_cast; ring)]
        exact combE_forthExz θ2 _ _
  refine ⟨fun i j k hk => ⟨?_, ?_⟩, ?_, ?_⟩
  · exact crystal_loopsE P U kx β hs hu hm s.1 s.2 hh e2 (fun c hc => by rw [ec c (incell c hc), he0]) i j k hk
  · exact crystal_loopsH P U kx β hs hu e2 s.2 sE h2 (fun c hc' => by rw [hc c (incell c hc'), hh0]) i j k hk
  · intro j k j1 j2 k1 k2
    dsimp only
    rw [crystalH_at U kx β hI hJ h2 (i := 0) (-1) 0 P.isize j k ⟨hI, le_rfl⟩ ⟨j1, j2⟩ (by ring) (by ring),
      hc (P.isize, j, k) ⟨⟨hI, le_rfl⟩, j1, j2⟩, by' _ (by dsimp only; omega) (by dsimp only; omega),
      bx j k j1 (by omega) k1 k2, phase_eq' kx β θx (-1) 0 (by rw [hθx]; push_cast; ring)]
    exact combH_backHyz θx _ _
  · intro i k i1 i2 k1 k2
    dsimp only
    obtain ⟨d, hd⟩ := by_ U hU i k i1 i2 k1 k2
    rw [hd]
    by_cases hi : i ≤ U
    · rw [if_pos hi, crystalH_at U kx β hI hJ h2 (i := i) (j := 0) 0 (-1) (i + U) P.jsize k
          ⟨by omega, by omega⟩ ⟨hJ, le_rfl⟩ (by ring) (by ring),
        hc (i + U, P.jsize, k) ⟨⟨by dsimp only; omega, by dsimp only; omega⟩, hJ, le_rfl⟩,
        bx' (i + U, P.jsize, k) (by dsimp only; omega) (by dsimp only; omega),
        phase_eq' kx β θ1 0 (-1) (by rw [hθ1, hβ]; push_cast; ring)]
      exact combH_backHxz θ1 _ _
    · rw [if_neg hi, crystalH_at U kx β hI hJ h2 (i := i) (j := 0) 1 (-1) (i - U) P.jsize k
          ⟨by omega, by omega⟩ ⟨hJ, le_rfl⟩ (by rw [hU]; ring) (by ring),
        hc (i - U, P.jsize, k) ⟨⟨by dsimp only; omega, by dsimp only; omega⟩, hJ, le_rfl⟩,
        bx' (i - U, P.jsize, k) (by dsimp only; omega) (by dsimp only; omega),
        phase_eq' kx β θ2 1 (-1) (by rw [hθ2, hβ]; push_cast; ring)]
      exact combH_backHxz θ2 _ _

/-- With an odd number of cells along `x`, three or more, no step ever changes the boundary value of the
electric field above the first column, so it cannot be the one of the crystal. -/
theorem tri_odd_fails (P : Par ℝ) (kx ky : ℝ) (hs : BlochSized P) (U : ℤ) (hU : P.isize = 2 * U + 1)
    (hU1 : 1 ≤ U) (k : ℤ) (s : EA ℝ × HA ℝ) (t : ℕ) :
    ((propagateTri P kx ky)^[t] s).1 (1, P.jsize + 1, k) = s.1 (1, P.jsize + 1, k) := by
  obtain ⟨hI, hI', hJ, hJ'⟩ := id hs
  induction t with
  | zero => rfl
  | succ t ih =>
    rw [Function.iterate_succ_apply', ← ih]
    generalize (propagateTri P kx ky)^[t] s = s
    unfold propagateTri
    dsimp only
    rw [(blochEwall_apply P _ _ _ _ hJ hI' _).2.1 U hU hU1,
      (blochEx_apply P _ _ hI _).2 _ (by simp) (by dsimp only; omega)]
    have hn : ((1, P.jsize + 1, k) : Ix) ∉ cells P := fun h => by
      have := (mem_cells.1 h).2.1.2
      dsimp only at this
      omega
    unfold loopsE
    rw [sweep_cells, if_neg hn, sweep_cells, if_neg hn]

/-! ### Examples -/

/-- Vacuum with `n` cells along `x`, periodic along `x` and `y`, and one metal cell. -/
noncomputable def blochBox (n : ℤ) : Par ℝ where
  dt := 1 / 2
  eo := 1
  uo := 1
  ups := 1
  ds_x := 1
  ds_y := 1
  ds_nz := fun _ => 1
  pisize := n + 1
  pjsize := 3
  pksize := 4
  isize := n
  jsize := 2
  use_periodic_x := true
  use_periodic_y := true
  position := fun _ => true
  mepsilon := fun c => if c = (1, 1, 1) then 2 else 0
  epsilonx := fun _ => 1
  epsilony := fun _ => 1
  epsilonz := fun _ => 1
  momega := fun _ => 0
  mgamma := fun _ => 0
  dPx := fun _ => 0
  dPy := fun _ => 0
  dPz := fun _ => 0
  dPx_old := fun _ => 0
  dPy_old := fun _ => 0
  dPz_old := fun _ => 0
  ddx := fun _ => 0
  ddy := fun _ => 0
  ddz := fun _ => 0
  aax := fun _ => 0
  aay := fun _ => 0
  aaz := fun _ => 0
  bbx := fun _ => 0
  bby := fun _ => 0
  bbz := fun _ => 0
  ccx := fun _ => 0
  ccy := fun _ => 0
  ccz := fun _ => 0
  eex := fun _ => 0
  eey := fun _ => 0
  eez := fun _ => 0
  ffx := fun _ => 0
  ffy := fun _ => 0
  ffz := fun _ => 0
  ggx := fun _ => 0
  ggy := fun _ => 0
  ggz := fun _ => 0
  hhx := fun _ => 0
  hhy := fun _ => 0
  hhz := fun _ => 0
  iix := fun _ => 0
  iiy := fun _ => 0
  iiz := fun _ => 0
  jjx := fun _ => 0
  jjy := fun _ => 0
  jjz := fun _ => 0
  kkx := fun _ => 0
  kky := fun _ => 0
  kkz := fun _ => 0
  llx := fun _ => 0
  lly := fun _ => 0
  llz := fun _ => 0

theorem blochBox_ok (n : ℤ) (hn : 1 ≤ n) :
    BlochSized (blochBox n) ∧ Uniform (blochBox n) ∧ NoMolecule (blochBox n) := by
  refine ⟨⟨hn, rfl, by norm_num [blochBox], by norm_num [blochBox]⟩, ⟨fun i _ _ => ?_, fun j _ _ => ?_⟩, fun c _ => ?_⟩
  · simp [blochBox]
  · simp [blochBox]
  · simp only [blochBox]; split_ifs <;> norm_num

/-- Fields without magnetic part satisfy the boundary condition, whatever the electric part. -/
theorem zero_sync (P : Par ℝ) (U : ℤ) (α β : ℝ) : SyncH P U α β fun _ => (⟨0, 0, 0, 0, 0, 0⟩, ⟨0, 0, 0, 0, 0, 0⟩) := by
  refine ⟨fun j k _ _ _ _ => ?_, fun i k _ _ _ _ => ?_⟩ <;> simp [crystalH, combH, smulH, cx]

/-- Every step from fields without magnetic part keeps the boundary condition. -/
example (kx ky : ℝ) (e : EA ℝ) (t : ℕ) : SyncH (blochBox 4) 2 kx (kx / 2 + ky)
    ((propagateTri (blochBox 4) kx ky)^[t] (e, fun _ => (⟨0, 0, 0, 0, 0, 0⟩, ⟨0, 0, 0, 0, 0, 0⟩))).2 := by
  obtain ⟨h1, h2, h3⟩ := blochBox_ok 4 (by norm_num)
  induction t with
  | zero => exact zero_sync _ _ _ _
  | succ t ih =>
    rw [Function.iterate_succ_apply']
    exact (tri_step_partial _ kx ky h1 h2 h3 2 rfl _ ih).2

end OpenMS.Fdtd
