import Verif.Model.Fdtd

/-!
# Mirror planes of the Maxwell solver

Model of `Hz_parity` in `/repo/openms/lib/fdtd/parameter.c` and of `Ez_parity_boundary_update`,
`Hz_parity_boundary_update` and `propagate` in `/repo/openms/lib/fdtd/timeupdate.c` with parities and
without periodic directions.  Conventions as in `Verif/Model/Fdtd.lean`.  Not modelled: the imaginary
fields, parities together with periodic directions.
-/

namespace OpenMS.Fdtd

/-- `parameter.c` L24: `cisize`, `cjsize`, `cksize`; L25: `xparity`, `yparity`, `zparity`. -/
structure Parity where
  (x y z : ℤ)
  (ci cj ck : ℤ)

/-- A direction has a mirror plane. -/
def Parity.on (σ : ℤ) : Prop := σ = 1 ∨ σ = -1

instance (σ : ℤ) : Decidable (Parity.on σ) := inferInstanceAs (Decidable (σ = 1 ∨ σ = -1))

variable {K : Type*} [Field K]

/-- `parameter.c` L402-421: `Hz_parity` changes the ends of the loops; L340-349: the middle planes. -/
def hzParity (P : Par K) (x y z isize jsize ksize : ℤ) : Par K × Parity :=
  let M : Parity := ⟨x, y, z, isize / 2, jsize / 2, ksize / 2⟩
  let P := { P with pisize := isize - 1, pjsize := jsize - 1, pksize := ksize - 1 }
  let P := if Parity.on x then { P with pisize := M.ci + 1 } else P
  let P := if Parity.on y then { P with pjsize := M.cj + 1 } else P
  let P := if Parity.on z then { P with pksize := M.ck + 1 } else P
  (P, M)

/-- `timeupdate.c` L857-872: the plane `x = cisize` in `Ez_parity_boundary_update`. -/
def parityEx (P : Par K) (M : Parity) (e : Ix → EF K) : Ix → EF K :=
  if M.x = 1 then copies ((pairs P.pjsize P.pksize).map fun t =>
    ((M.ci, t.1, t.2), (M.ci - 1, t.1, t.2), fun d s => { d with x := s.x, y := 0, z := 0 })) e
  else if M.x = -1 then copies ((pairs P.pjsize P.pksize).map fun t =>
    ((M.ci, t.1, t.2), (M.ci - 1, t.1, t.2), fun d s => { d with x := -s.x })) e
  else e

/-- `timeupdate.c` L874-887: the plane `y = cjsize`; the pairs are `(i, k)`, the order of the two loops
is exchanged. -/
def parityEy (P : Par K) (M : Parity) (e : Ix → EF K) : Ix → EF K :=
  if M.y = 1 then copies ((pairs P.pisize P.pksize).map fun t =>
    ((t.1, M.cj, t.2), (t.1, M.cj - 1, t.2), fun d s => { d with y := s.y, x := 0, z := 0 })) e
  else if M.y = -1 then copies ((pairs P.pisize P.pksize).map fun t =>
    ((t.1, M.cj, t.2), (t.1, M.cj - 1, t.2), fun d s => { d with y := -s.y })) e
  else e

/-- `timeupdate.c` L889-902: the plane `z = cksize`. -/
def parityEz (P : Par K) (M : Parity) (e : Ix → EF K) : Ix → EF K :=
  if M.z = 1 then copies ((pairs P.pisize P.pjsize).map fun t =>
    ((t.1, t.2, M.ck), (t.1, t.2, M.ck - 1), fun d s => { d with z := s.z, x := 0, y := 0 })) e
  else if M.z = -1 then copies ((pairs P.pisize P.pjsize).map fun t =>
    ((t.1, t.2, M.ck), (t.1, t.2, M.ck - 1), fun d s => { d with z := -s.z })) e
  else e

/-- `timeupdate.c` L957-971: the plane `x = cisize` in `Hz_parity_boundary_update`. -/
def parityHx (P : Par K) (M : Parity) (h : Ix → HF K) : Ix → HF K :=
  if M.x = 1 then copies ((pairs P.pjsize P.pksize).map fun t =>
    ((M.ci, t.1, t.2), (M.ci - 1, t.1, t.2), fun d s => { d with y := s.y, z := s.z, x := 0 })) h
  else if M.x = -1 then copies ((pairs P.pjsize P.pksize).map fun t =>
    ((M.ci, t.1, t.2), (M.ci - 1, t.1, t.2), fun d s => { d with y := -s.y, z := -s.z })) h
  else h

/-- `timeupdate.c` L973-987: the plane `y = cjsize`. -/
def parityHy (P : Par K) (M : Parity) (h : Ix → HF K) : Ix → HF K :=
  if M.y = 1 then copies ((pairs P.pisize P.pksize).map fun t =>
    ((t.1, M.cj, t.2), (t.1, M.cj - 1, t.2), fun d s => { d with z := s.z, x := s.x, y := 0 })) h
  else if M.y = -1 then copies ((pairs P.pisize P.pksize).map fun t =>
    ((t.1, M.cj, t.2), (t.1, M.cj - 1, t.2), fun d s => { d with z := -s.z, x := -s.x })) h
  else h

/-- `timeupdate.c` L989-1003: the plane `z = cksize`. -/
def parityHz (P : Par K) (M : Parity) (h : Ix → HF K) : Ix → HF K :=
  if M.z = 1 then copies ((pairs P.pisize P.pjsize).map fun t =>
    ((t.1, t.2, M.ck), (t.1, t.2, M.ck - 1), fun d s => { d with x := s.x, y := s.y, z := 0 })) h
  else if M.z = -1 then copies ((pairs P.pisize P.pjsize).map fun t =>
    ((t.1, t.2, M.ck), (t.1, t.2, M.ck - 1), fun d s => { d with x := -s.x, y := -s.y })) h
  else h

/-- `timeupdate.c` L231-368: `propagate` with parities and without periodic directions. -/
def propagateParity [DecidableEq K] (P : Par K) (M : Parity) (s : St K) : St K :=
  let e := parityEz P M (parityEy P M (parityEx P M (sweep (stepE P s.2) (cells P) s.1)))
  let h := parityHz P M (parityHy P M (parityHx P M (sweep (stepH P e) (cells P) s.2)))
  (e, h)

end OpenMS.Fdtd
