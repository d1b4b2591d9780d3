import Verif.Model.FdtdBloch

/-!
# Triangular lattice at the Γ point

Model of `propagate_tri` in `/repo/openms/lib/fdtd/timeupdate.c` for the wave vector zero: only the real arrays are used.  Not
modelled: the parities.
-/

namespace OpenMS.Fdtd

variable {K : Type*} [Field K]

/-- `timeupdate.c` L1307-1317: `E_field_Gamma_boundary_update_Xwall`; the two assignments to the same cell are one. -/
def gammaEXwall (P : Par K) : (Ix → EF K) → Ix → EF K :=
  copies ((pairs P.pjsize P.pksize).flatMap fun jk =>
    [((0, jk), (P.isize, jk), fun d s => { d with x := s.x }),
     ((P.isize + 1, jk), (1, jk), fun d s => { d with y := s.y, z := s.z })])

/-- `timeupdate.c` L1330-1351: `E_field_Gamma_boundary_update_Ywall`. -/
def gammaEYwall (P : Par K) (a : Ix → EF K) : Ix → EF K :=
  let U := P.isize / 2
  copies ((pairsFrom (P.pisize - U) P.pisize P.pksize).flatMap fun ik =>
    [((ik.1, 0, ik.2), (ik.1 - U, P.jsize, ik.2), fun d s => { d with y := s.y }),
     ((ik.1 - U, P.jsize + 1, ik.2), (ik.1, 1, ik.2), fun d s => { d with x := s.x, z := s.z })])
  (copies ((pairsFrom 1 (P.pisize - U) P.pksize).flatMap fun ik =>
    [((ik.1, 0, ik.2), (ik.1 + U, P.jsize, ik.2), fun d s => { d with y := s.y }),
     ((ik.1 + U, P.jsize + 1, ik.2), (ik.1, 1, ik.2), fun d s => { d with x := s.x, z := s.z })]) a)

/-- `timeupdate.c` L1364-1374: `H_field_Gamma_boundary_update_Xwall`. -/
def gammaHXwall (P : Par K) : (Ix → HF K) → Ix → HF K :=
  copies ((pairs P.pjsize P.pksize).flatMap fun jk =>
    [((P.isize + 1, jk), (1, jk), fun d s => { d with x := s.x }),
     ((0, jk), (P.isize, jk), fun d s => { d with y := s.y, z := s.z })])

/-- `timeupdate.c` L1387-1408: `H_field_Gamma_boundary_update_Ywall`. -/
def gammaHYwall (P : Par K) (a : Ix → HF K) : Ix → HF K :=
  let U := P.isize / 2
  copies ((pairsFrom (P.pisize - U) P.pisize P.pksize).flatMap fun ik =>
    [((ik.1 - U, P.jsize + 1, ik.2), (ik.1, 1, ik.2), fun d s => { d with y := s.y }),
     ((ik.1, 0, ik.2), (ik.1 - U, P.jsize, ik.2), fun d s => { d with x := s.x, z := s.z })])
  (copies ((pairsFrom 1 (P.pisize - U) P.pksize).flatMap fun ik =>
    [((ik.1 + U, P.jsize + 1, ik.2), (ik.1, 1, ik.2), fun d s => { d with y := s.y }),
     ((ik.1, 0, ik.2), (ik.1 + U, P.jsize, ik.2), fun d s => { d with x := s.x, z := s.z })]) a)

/-- `timeupdate.c` L373-509: `propagate_tri` for the wave vector zero, periodic along `x` and `y`, without parities. -/
def propagateTriGamma [DecidableEq K] (P : Par K) (s : St K) : St K :=
  let e := sweep (stepE P s.2) (cells P) s.1
  let e := gammaEXwall P e
  let e := gammaEYwall P e
  let h := sweep (stepH P e) (cells P) s.2
  let h := gammaHXwall P h
  let h := gammaHYwall P h
  (e, h)

end OpenMS.Fdtd
