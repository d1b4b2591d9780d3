import Verif.Model.Fdtd
import Mathlib.Analysis.SpecialFunctions.Trigonometric.Basic

/-!
# Maxwell solver with a Bloch wave vector

Model of `propagate` and `propagate_tri` in `/repo/openms/lib/fdtd/timeupdate.c` for a wave vector that
is not zero: every field has a real and an imaginary array.  A pair of arrays is an array of pairs.  The
updates of single cells for the imaginary fields (L728-852) are the same formulas as for the real ones
(L511-726) with other arrays, so they are the same functions here.  Not modelled: the parities.
-/

namespace OpenMS.Fdtd

variable {K : Type*} [Field K]

/-- `timeupdate.c` L267-284: the update chosen for a cell of the imaginary electric field.  It has no
branch for molecules. -/
def stepIE [DecidableEq K] (P : Par K) (h : Ix → HF K) (c : Ix) (v : EF K) : EF K :=
  let pos := P.position c
  let me := P.mepsilon c
  if pos = true ∧ me = 0 then normalE P h c v
  else if pos = true ∧ (me ≠ 0 ∧ me ≠ 1000) then metalE P h c v
  else if pos = false ∧ (me ≠ 0 ∧ me ≠ 1000) then metalE P h c v
  else if pos = true ∧ me = 1000 then pcmE v
  else if pos = false ∧ me = 0 then pmlE P h c v
  else v

/-- Real and imaginary electric arrays. -/
abbrev EA (K : Type*) := Ix → EF K × EF K

/-- Real and imaginary magnetic arrays. -/
abbrev HA (K : Type*) := Ix → HF K × HF K

/-- Pairs of loop variables, the first one from `a`. -/
def pairsFrom (a p q : ℤ) : List (ℤ × ℤ) := (irange a p).flatMap fun i => (irange 1 q).map fun k => (i, k)

/-- Assignment of `Ex` and `iEx` with the conjugate phase. -/
def backEx (C S : K) (d s : EF K × EF K) : EF K × EF K :=
  ({ d.1 with x := s.1.x * C + s.2.x * S }, { d.2 with x := -s.1.x * S + s.2.x * C })

/-- Assignment of `Ey` and `iEy` with the conjugate phase. -/
def backEy (C S : K) (d s : EF K × EF K) : EF K × EF K :=
  ({ d.1 with y := s.1.y * C + s.2.y * S }, { d.2 with y := -s.1.y * S + s.2.y * C })

/-- Assignment of `Ey`, `Ez`, `iEy`, `iEz` with the phase. -/
def forthEyz (C S : K) (d s : EF K × EF K) : EF K × EF K :=
  ({ d.1 with y := s.1.y * C - s.2.y * S, z := s.1.z * C - s.2.z * S },
   { d.2 with y := s.1.y * S + s.2.y * C, z := s.1.z * S + s.2.z * C })

/-- Assignment of `Ex`, `Ez`, `iEx`, `iEz` with the phase. -/
def forthExz (C S : K) (d s : EF K × EF K) : EF K × EF K :=
  ({ d.1 with x := s.1.x * C - s.2.x * S, z := s.1.z * C - s.2.z * S },
   { d.2 with x := s.1.x * S + s.2.x * C, z := s.1.z * S + s.2.z * C })

/-- Assignment of `Hx` and `iHx` with the phase. -/
def forthHx (C S : K) (d s : HF K × HF K) : HF K × HF K :=
  ({ d.1 with x := s.1.x * C - s.2.x * S }, { d.2 with x := s.1.x * S + s.2.x * C })

/-- Assignment of `Hy` and `iHy` with the phase. -/
def forthHy (C S : K) (d s : HF K × HF K) : HF K × HF K :=
  ({ d.1 with y := s.1.y * C - s.2.y * S }, { d.2 with y := s.1.y * S + s.2.y * C })

/-- Assignment of `Hy`, `Hz`, `iHy`, `iHz` with the conjugate phase. -/
def backHyz (C S : K) (d s : HF K × HF K) : HF K × HF K :=
  ({ d.1 with y := s.1.y * C + s.2.y * S, z := s.1.z * C + s.2.z * S },
   { d.2 with y := -s.1.y * S + s.2.y * C, z := -s.1.z * S + s.2.z * C })

/-- Assignment of `Hx`, `Hz`, `iHx`, `iHz` with the conjugate phase. -/
def backHxz (C S : K) (d s : HF K × HF K) : HF K × HF K :=
  ({ d.1 with x := s.1.x * C + s.2.x * S, z := s.1.z * C + s.2.z * S },
   { d.2 with x := -s.1.x * S + s.2.x * C, z := -s.1.z * S + s.2.z * C })

/-- `timeupdate.c` L1058-1078 and L1080-1101: `E_field_periodic_boundary_update_x` and `_Xwall`, which
have the same lines; the assignments to the same cell are one. -/
def blochEx (P : Par K) (C S : K) : EA K → EA K :=
  copies ((pairs P.pjsize P.pksize).flatMap fun jk =>
    [((0, jk), (P.isize, jk), backEx C S), ((P.isize + 1, jk), (1, jk), forthEyz C S)])

/-- `timeupdate.c` L1103-1123: `E_field_periodic_boundary_update_y`. -/
def blochEy (P : Par K) (C S : K) : EA K → EA K :=
  copies ((pairs P.pisize P.pksize).flatMap fun ik =>
    [((ik.1, 0, ik.2), (ik.1, P.jsize, ik.2), backEy C S),
     ((ik.1, P.jsize + 1, ik.2), (ik.1, 1, ik.2), forthExz C S)])

/-- `timeupdate.c` L1125-1175: `E_field_periodic_boundary_update_Ywall`, with the two phases. -/
def blochEwall (P : Par K) (C1 S1 C2 S2 : K) (a : EA K) : EA K :=
  let U := P.isize / 2
  copies ((pairsFrom (P.pisize - U) P.pisize P.pksize).flatMap fun ik =>
    [((ik.1, 0, ik.2), (ik.1 - U, P.jsize, ik.2), backEy C2 S2),
     ((ik.1 - U, P.jsize + 1, ik.2), (ik.1, 1, ik.2), forthExz C2 S2)])
  (copies ((pairsFrom 1 (P.pisize - U) P.pksize).flatMap fun ik =>
    [((ik.1, 0, ik.2), (ik.1 + U, P.jsize, ik.2), backEy C1 S1),
     ((ik.1 + U, P.jsize + 1, ik.2), (ik.1, 1, ik.2), forthExz C1 S1)]) a)

/-- `timeupdate.c` L1177-1197 and L1199-1220: `H_field_periodic_boundary_update_x` and `_Xwall`. -/
def blochHx (P : Par K) (C S : K) : HA K → HA K :=
  copies ((pairs P.pjsize P.pksize).flatMap fun jk =>
    [((P.isize + 1, jk), (1, jk), forthHx C S), ((0, jk), (P.isize, jk), backHyz C S)])

/-- `timeupdate.c` L1222-1242: `H_field_periodic_boundary_update_y`. -/
def blochHy (P : Par K) (C S : K) : HA K → HA K :=
  copies ((pairs P.pisize P.pksize).flatMap fun ik =>
    [((ik.1, P.jsize + 1, ik.2), (ik.1, 1, ik.2), forthHy C S),
     ((ik.1, 0, ik.2), (ik.1, P.jsize, ik.2), backHxz C S)])

/-- `timeupdate.c` L1244-1294: `H_field_periodic_boundary_update_Ywall`. -/
def blochHwall (P : Par K) (C1 S1 C2 S2 : K) (a : HA K) : HA K :=
  let U := P.isize / 2
  copies ((pairsFrom (P.pisize - U) P.pisize P.pksize).flatMap fun ik =>
    [((ik.1 - U, P.jsize + 1, ik.2), (ik.1, 1, ik.2), forthHy C2 S2),
     ((ik.1, 0, ik.2), (ik.1 - U, P.jsize, ik.2), backHxz C2 S2)])
  (copies ((pairsFrom 1 (P.pisize - U) P.pksize).flatMap fun ik =>
    [((ik.1 + U, P.jsize + 1, ik.2), (ik.1, 1, ik.2), forthHy C1 S1),
     ((ik.1, 0, ik.2), (ik.1 + U, P.jsize, ik.2), backHxz C1 S1)]) a)

/-- `timeupdate.c` L235-286: the loops over the electric cells. -/
def loopsE [DecidableEq K] (P : Par K) (h : HA K) (e : EA K) : EA K := fun c =>
  (sweep (stepE P fun d => (h d).1) (cells P) (fun d => (e d).1) c,
   sweep (stepIE P fun d => (h d).2) (cells P) (fun d => (e d).2) c)

/-- `timeupdate.c` L307-347: the loops over the magnetic cells; the choice of the update is the same
for the real and the imaginary field. -/
def loopsH [DecidableEq K] (P : Par K) (e : EA K) (h : HA K) : HA K := fun c =>
  (sweep (stepH P fun d => (e d).1) (cells P) (fun d => (h d).1) c,
   sweep (stepH P fun d => (e d).2) (cells P) (fun d => (h d).2) c)

open Real

/-- `timeupdate.c` L231-368: `propagate` for a wave vector that is not zero, periodic along `x` and
`y`, without parities. -/
noncomputable def propagateBloch (P : Par ℝ) (kx ky : ℝ) (s : EA ℝ × HA ℝ) : EA ℝ × HA ℝ :=
  let e := loopsE P s.2 s.1
  let e := blochEx P (cos (kx * 2 * π)) (sin (kx * 2 * π)) e
  let e := blochEy P (cos (ky * 2 * π)) (sin (ky * 2 * π)) e
  let h := loopsH P e s.2
  let h := blochHx P (cos (kx * 2 * π)) (sin (kx * 2 * π)) h
  let h := blochHy P (cos (ky * 2 * π)) (sin (ky * 2 * π)) h
  (e, h)

/-- `timeupdate.c` L373-509: `propagate_tri` for a wave vector that is not zero, periodic along `x` and
`y`, without parities. -/
noncomputable def propagateTri (P : Par ℝ) (kx ky : ℝ) (s : EA ℝ × HA ℝ) : EA ℝ × HA ℝ :=
  let a1 := (1 / 2 * kx + ky) * 2 * π
  let a2 := (-(1 / 2) * kx + ky) * 2 * π
  let e := loopsE P s.2 s.1
  let e := blochEx P (cos (kx * 2 * π)) (sin (kx * 2 * π)) e
  let e := blochEwall P (cos a1) (sin a1) (cos a2) (sin a2) e
  let h := loopsH P e s.2
  let h := blochHx P (cos (kx * 2 * π)) (sin (kx * 2 * π)) h
  let h := blochHwall P (cos a1) (sin a1) (cos a2) (sin a2) h
  (e, h)

end OpenMS.Fdtd
