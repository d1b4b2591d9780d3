import Verif.Model.QedFciDensity

/-!
# Site modes, full matrix of the modes and density matrix of the bosons in the full CI

`openms/mqed/qedfci.py` L393-439 (`contract_eb_new`), L441-475 (`contract_bb_full`), L789-804 (`make_rdm1p`).  Orbitals are
numbered `0 … norb - 1`; a string is the set of its occupied orbitals, so `strs & (1 << i)` asks whether orbital `i` is in
the set (never for `i ≥ norb`).
-/

namespace OpenMS.QedFci

variable {m norb : ℕ} {S : Type*}

/-- `qedfci.py` L419-420: `maska`, `maskb`, one entry. -/
def masked (A : Finset (Fin norb)) (i : ℕ) : Prop := ∃ p ∈ A, p.val = i

instance (A : Finset (Fin norb)) (i : ℕ) : Decidable (masked A i) := by unfold masked; infer_instance

/-- `qedfci.py` L421-424: `e_part` of mode `x` for one pair of strings. -/
noncomputable def ePart {Na Nb : ℕ} (x : Fin m) (s : Str (Fin norb) Na × Str (Fin norb) Nb) : ℝ :=
  0 + (if masked s.1.1 x then 1 else 0) + (if masked s.2.1 x then 1 else 0) - ((Na + Nb : ℕ) : ℝ) / (m : ℝ)

/-- The argument `Heb`: one number per mode, or one matrix of orbitals per mode as `kernel` has it. -/
inductive HebArg (m norb : ℕ) where
  /-- `Heb[i]` is a number -/
  | scalar (g : Fin m → ℝ)
  /-- `Heb[i]` is a matrix -/
  | matrix (g : Fin m → Fin norb → Fin norb → ℝ)

/-- `qedfci.py` L430-438: the loops over modes and occupations; `f x s` is `Heb[i]` as it meets the pair of strings `s`. -/
noncomputable def ebLoop {Na Nb : ℕ} (N : Fin m → ℕ) (f : Fin m → Str (Fin norb) Na × Str (Fin norb) Nb → ℝ)
    (c : Str (Fin norb) Na × Str (Fin norb) Nb → (Fin m → ℕ) → ℝ) (s : Str (Fin norb) Na × Str (Fin norb) Nb)
    (σ : Fin m → ℕ) : ℝ :=
  ∑ x, ∑ ip ∈ Finset.range (N x),
    ((if σ x = ip + 1 then f x s * Real.sqrt ((ip : ℝ) + 1) * ePart x s * c s (Function.update σ x ip) else 0) +
     (if σ x = ip then f x s * Real.sqrt ((ip : ℝ) + 1) * ePart x s * c s (Function.update σ x (ip + 1)) else 0))

open Classical in
/-- `qedfci.py` L395-439: `contract_eb_new`.  A matrix is multiplied entry by entry with `e_part`, whose axes are strings: if
the loops run at all, both numbers of strings have to be `norb` (or `norb` is one), otherwise `ValueError`; `ia`, `ib` are the positions of the
strings. -/
noncomputable def contractEBNew {Na Nb : ℕ} (N : Fin m → ℕ) (ia : Str (Fin norb) Na → ℕ) (ib : Str (Fin norb) Nb → ℕ)
    (H : HebArg m norb) (c : Str (Fin norb) Na × Str (Fin norb) Nb → (Fin m → ℕ) → ℝ) :
    Except String (Str (Fin norb) Na × Str (Fin norb) Nb → (Fin m → ℕ) → ℝ) :=
  match H with
  | .scalar g => .ok (ebLoop N (fun x _ => g x) c)
  | .matrix g =>
    if (∃ x, 1 ≤ N x) ∧ norb ≠ 1 ∧
        ¬(Fintype.card (Str (Fin norb) Na) = norb ∧ Fintype.card (Str (Fin norb) Nb) = norb) then .error "ValueError"
    else .ok (ebLoop N (fun x s => if h : ia s.1 < norb ∧ ib s.2 < norb then g x ⟨ia s.1, h.1⟩ ⟨ib s.2, h.2⟩ else 0) c)

/-- `qedfci.py` L450-456 and L794-801: the array `t1` of one mode. -/
noncomputable def annArray (N : Fin m → ℕ) (c : S → (Fin m → ℕ) → ℝ) (x : Fin m) (s : S) (σ : Fin m → ℕ) : ℝ :=
  ∑ i ∈ Finset.range (N x), if σ x = i then c s (Function.update σ x (i + 1)) * Real.sqrt ((i : ℝ) + 1) else 0

/-- `qedfci.py` L441-475: `contract_bb_full` without `out`.  The names `get_ci_shape`, `np`, `boson_states` and `mode_id` are
neither arguments nor defined in the module (`NameError`); `names` is the value of `mode_id` if all of them exist somewhere, with
`nph` for all entries of `boson_states`. -/
noncomputable def contractBBFull (names : Option (Fin m)) (nph : ℕ) (Hbb : Fin m → Fin m → ℝ) (zs : Option (Fin m → ℝ))
    (c : S → (Fin m → ℕ) → ℝ) : Except String (S → (Fin m → ℕ) → ℝ) :=
  match names with
  | none => .error "NameError"
  | some k => .ok fun s σ =>
      let t1 : Fin m → S → (Fin m → ℕ) → ℝ := fun x s σ => ∑ y, Hbb x y * annArray (fun _ => nph) c y s σ
      (∑ x, ∑ i ∈ Finset.range nph, if σ x = i + 1 then t1 k s (Function.update σ x i) * Real.sqrt ((i : ℝ) + 1) else 0) +
        zs.elim 0 fun z => ∑ x, ∑ i ∈ Finset.range nph,
          ((if σ x = i + 1 then (∑ y, Hbb k y * z y) * Real.sqrt ((i : ℝ) + 1) * c s (Function.update σ x i) else 0) +
           (if σ x = i then (∑ y, Hbb k y * z y) * Real.sqrt ((i : ℝ) + 1) * c s (Function.update σ x (i + 1)) else 0))

open Classical in
/-- `qedfci.py` L789-804: `make_rdm1p`.  The array `t1` has `norb` rows, one of which is written for every mode (`IndexError`
beyond them).  The name `nsite` is no argument; `nsite` here is its value if the module has one (L847 in the script at the end
of the file).  Of the values other than `norb` only this is kept: no matrix with `norb` rows comes out. -/
noncomputable def makeRdm1p [Fintype S] (nsite : Option ℕ) (norb : ℕ) (N : Fin m → ℕ) (c : S → (Fin m → ℕ) → ℝ) :
    Except String (Fin norb → Fin norb → ℝ) :=
  if ∃ x : Fin m, norb ≤ x.val ∧ 1 ≤ N x then .error "IndexError"
  else match nsite with
  | none => .error "NameError"
  | some g =>
    if g = norb then
      let t1 : Fin norb → S → (Fin m → ℕ) → ℝ := fun p s σ => if h : p.val < m then annArray N c ⟨p, h⟩ s σ else 0
      .ok fun p q => ∑ s, ∑ σ ∈ box N, t1 p s σ * t1 q s σ
    else .error "other shape"

end OpenMS.QedFci
