import Mathlib.Data.List.Sort
import Mathlib.LinearAlgebra.Matrix.Determinant.Basic
import Mathlib.Data.Complex.Basic

/-!
# The trial state with several determinants

Model of the class `multiCI`, of `get_ci`, of `permutation_sign` and of the overlap with
several determinants in `/repo/openms/qmc/trial.py`.  Occupations are lists of orbital numbers, as
returned by `large_ci(..., return_strs=False)`.
-/

namespace OpenMS.MultiDet

/-- `trial.py` L1081-1082: the numbers of active electrons of both spins. -/
def activeElectrons (neleccas spin : ℤ) : ℤ × ℤ :=
  ((neleccas + spin) / 2, neleccas - (neleccas + spin) / 2)

/-- What `__init__` leaves behind. -/
structure Trial where
  occa : List (List ℕ)
  occb : List (List ℕ)
  /-- occupied spin orbitals -/
  occSo : List (List ℕ)
  coeffs : List ℂ
  naoCas : ℕ
  naoFrozen : ℕ

/-- `backend.max` of a table of numbers; an empty one raises `ValueError`. -/
def maxEntry (l : List (List ℕ)) : Option ℕ := l.flatten.max?

/-- L1129-1132: `max_orbital`; the occupations of the second spin enter only if `nbeta > 0`. -/
def maxOrbital (nbeta : ℕ) (occa occb : List (List ℕ)) : Except String ℕ :=
  if nbeta > 0 then
    match maxEntry occa, maxEntry occb with
    | some a, some b => .ok (max a b + 1)
    | _, _ => .error "ValueError"
  else
    match maxEntry occa with
    | some a => .ok (a + 1)
    | none => .error "ValueError"

/-- L1166-1169: the occupations with the frozen orbitals put in front.  The list `frozen_core` of the
first spin is used for both spins, and nothing happens if the first spin has no frozen electrons. -/
def addCore (frozenA frozenB : ℕ) (occa occb : List (List ℕ)) : List (List ℕ) × List (List ℕ) :=
  if frozenA > 0 then
    (occa.map fun oa => List.range frozenA ++ oa.map (· + frozenA),
     occb.map fun ob => List.range frozenA ++ ob.map (· + frozenB))
  else (occa, occb)

/-- L1109-1196: `multiCI.__init__` with a given expansion; `numdets < 0` selects all
determinants (L1140). -/
def init (nalpha nbeta nao : ℕ) (useCas : Bool) (numdets : ℤ) (coeffs : List ℂ)
    (occa occb : List (List ℕ)) : Except String Trial :=
  if occa.length ≠ occb.length ∨ occa.length ≠ coeffs.length then .error "AssertionError"
  else
    match maxOrbital nbeta occa occb with
    | .error e => .error e
    | .ok mx =>
      let nd : ℤ := if numdets < 0 then coeffs.length else numdets
      if nd > coeffs.length then .error "AssertionError"
      else
        match occa.head?, occb.head? with
        | some a0, some b0 =>
          if a0.length ≤ nalpha ∧ b0.length ≤ nbeta then
            let occ := addCore (nalpha - a0.length) (nbeta - b0.length) occa occb
            let oa := occ.1.take nd.toNat
            let ob := occ.2.take nd.toNat
            let ncas := if useCas then a0.length + b0.length else nalpha + nbeta
            .ok { occa := oa, occb := ob,
                  occSo := (oa.zip ob).map fun d => (d.1 ++ d.2.map (· + nao)).mergeSort (· ≤ ·),
                  coeffs := coeffs.take nd.toNat,
                  naoCas := if useCas then mx else nao,
                  naoFrozen := (nalpha + nbeta - ncas) / 2 }
          else .error "AssertionError"
        | _, _ => .error "IndexError"

/-- Rows `occ` of the walker matrix: `Imat[:, occ]` contracted with the walker (L1213-1215, L299).
The trial columns are unit vectors, so conjugation does nothing. -/
def rows {n : ℕ} (W : ℕ → Fin n → ℂ) (occ : List ℕ) : Matrix (Fin n) (Fin n) ℂ :=
  Matrix.of fun k j => W (occ.getD k 0) j

/-- L1222-1232 with L516-569: the overlap with a walker returned by `calc_MSD_trial_walker_ovlp` and
`calc_MSD_trial_walker_ovlp_gf`: the reference determinant only. -/
noncomputable def ovlpCode {na nb : ℕ} (t : Trial) (Wa : ℕ → Fin na → ℂ) (Wb : ℕ → Fin nb → ℂ) : ℂ :=
  (rows Wa (t.occa.getD 0 [])).det * (rows Wb (t.occb.getD 0 [])).det

/-- Position of `o` in a determinant, `backend.where(det == o)[0]`; `none` is the empty array. -/
def position (det : List ℕ) (o : ℕ) : Option ℕ := if o ∈ det then some (det.idxOf o) else none

/-- One of the two loops of `permutation_sign` (L591-594, L596-599); an empty array makes the
sum an empty array. -/
def moves (det : List ℕ) : ℕ → List ℕ → Option ℤ
  | _, [] => some 0
  | nmove, o :: os =>
    match position det o, moves det (nmove + 1) os with
    | some io, some rest => some ((io : ℤ) - (nmove : ℤ) + rest)
    | _, _ => none

/-- L583-602: `permutation_sign`.  The comparison of an empty array is false. -/
def permutationSign (anh cre ref target : List ℕ) : ℤ :=
  match moves target 0 anh, moves ref 0 cre with
  | some x, some y => if (x + y) % 2 = 1 then -1 else 1
  | _, _ => 1

end OpenMS.MultiDet
