import Verif.Model.MultiDet
import Mathlib.LinearAlgebra.Matrix.Determinant.Basic
import Mathlib.Data.List.GetD
import Mathlib.Tactic

/-!
# Properties of the trial state with several determinants
-/

namespace OpenMS.MultiDet

open Matrix

/-! ### C101: occupations -/

theorem core_sorted (f : ℕ) (l : List ℕ) (hl : l.Pairwise (· < ·)) :
    (List.range f ++ l.map (· + f)).Pairwise (· < ·) := by
  rw [List.pairwise_append]
  refine ⟨List.pairwise_lt_range, ?_, ?_⟩
  · rw [List.pairwise_map]
    exact hl.imp fun h => by omega
  · intro a ha b hb
    simp only [List.mem_range] at ha
    simp only [List.mem_map] at hb
    obtain ⟨c, _, rfl⟩ := hb
    omega

theorem core_mem (f : ℕ) (l : List ℕ) (o : ℕ) :
    o ∈ List.range f ++ l.map (· + f) ↔ o < f ∨ ∃ c ∈ l, o = c + f := by
  simp [eq_comm]

/-- How many determinants are kept. -/
def kept (numdets : ℤ) (n : ℕ) : ℕ := (if numdets < 0 then (n : ℤ) else numdets).toNat

/-- What a successful `__init__` has done. -/
theorem init_ok {nalpha nbeta nao : ℕ} {useCas : Bool} {numdets : ℤ} {coeffs : List ℂ}
    {occa occb : List (List ℕ)} {t : Trial}
    (h : init nalpha nbeta nao useCas numdets coeffs occa occb = .ok t) :
    ∃ a0 b0, occa.head? = some a0 ∧ occb.head? = some b0 ∧ a0.length ≤ nalpha ∧ b0.length ≤ nbeta ∧
      occa.length = coeffs.length ∧ occb.length = coeffs.length ∧
      kept numdets coeffs.length ≤ coeffs.length ∧
      t.occa = (addCore (nalpha - a0.length) (nbeta - b0.length) occa occb).1.take
        (kept numdets coeffs.length) ∧
      t.occb = (addCore (nalpha - a0.length) (nbeta - b0.length) occa occb).2.take
        (kept numdets coeffs.length) ∧
      t.occSo = (t.occa.zip t.occb).map (fun d => (d.1 ++ d.2.map (· + nao)).mergeSort (· ≤ ·)) ∧
      t.coeffs = coeffs.take (kept numdets coeffs.length) ∧
      t.naoFrozen = (nalpha + nbeta -
        (if useCas then a0.length + b0.length else nalpha + nbeta)) / 2 := by
  unfold init at h
  by_cases h1 : occa.length ≠ occb.length ∨ occa.length ≠ coeffs.length
  · rw [if_pos h1] at h; cases h
  rw [if_neg h1] at h
  rw [not_or, not_not, not_not] at h1
  cases hm : maxOrbital nbeta occa occb with
  | error e => rw [hm] at h; cases h
  | ok mx =>
    rw [hm] at h
    simp only at h
    generalize hnd : (if numdets < 0 then (coeffs.length : ℤ) else numdets) = nd at h
    have hk : kept numdets coeffs.length = nd.toNat := by rw [kept, hnd]
    by_cases h2 : nd > coeffs.length
    · rw [if_pos h2] at h; cases h
    · rw [if_neg h2] at h
      cases ha : occa.head? with
      | none => rw [ha] at h; cases h
      | some a0 =>
        cases hb : occb.head? with
        | none => rw [ha, hb] at h; cases h
        | some b0 =>
          rw [ha, hb] at h
          simp only at h
          by_cases h3 : a0.length ≤ nalpha ∧ b0.length ≤ nbeta
          · rw [if_pos h3] at h
            injection h with h
            subst h
            refine ⟨a0, b0, rfl, rfl, h3.1, h3.2, h1.2, by omega, by omega, ?_, ?_, rfl, ?_, rfl⟩ <;>
              simp only [hk]
          · rw [if_neg h3] at h; cases h

theorem addCore_fst (fa fb : ℕ) (occa occb : List (List ℕ)) :
    (addCore fa fb occa occb).1 = occa.map fun oa => List.range fa ++ oa.map (· + fa) := by
  unfold addCore
  split_ifs with h
  · rfl
  · have : fa = 0 := by omega
    subst this
    simp

theorem addCore_snd (f : ℕ) (occa occb : List (List ℕ)) :
    (addCore f f occa occb).2 = occb.map fun ob => List.range f ++ ob.map (· + f) := by
  unfold addCore
  split_ifs with h
  · rfl
  · have : f = 0 := by omega
    subst this
    simp

/-- **C101, proved part.** If both spins have the same number `f` of frozen electrons, every kept
determinant of the trial occupies the first `f` orbitals and, above them, the orbitals of the
expansion it was given, in increasing order, with the right number of electrons of both spins; the
spin orbitals are listed in increasing order.  Determinants keep their place and
coefficient. -/
theorem occupations_partial {nalpha nbeta nao : ℕ} {useCas : Bool} {numdets : ℤ} {coeffs : List ℂ}
    {occa occb : List (List ℕ)} {t : Trial} {ca cb f : ℕ}
    (h : init nalpha nbeta nao useCas numdets coeffs occa occb = .ok t)
    (ha : ∀ o ∈ occa, o.Pairwise (· < ·) ∧ o.length = ca)
    (hb : ∀ o ∈ occb, o.Pairwise (· < ·) ∧ o.length = cb)
    (hfa : nalpha = f + ca) (hfb : nbeta = f + cb)
    (hf : f ≤ nao) (hnao : ∀ o ∈ occa, ∀ x ∈ o, x + f < nao) :
    t.occa.length = t.coeffs.length ∧ t.occb.length = t.coeffs.length ∧
    t.occSo.length = t.coeffs.length ∧
    (numdets < 0 → t.coeffs = coeffs) ∧ (0 ≤ numdets → t.coeffs = coeffs.take numdets.toNat) ∧
    (∀ (k : ℕ) (oa : List ℕ), t.occa[k]? = some oa → oa.Pairwise (· < ·) ∧ oa.length = nalpha ∧
      ∃ o, occa[k]? = some o ∧ ∀ x, x ∈ oa ↔ x < f ∨ ∃ c ∈ o, x = c + f) ∧
    (∀ (k : ℕ) (ob : List ℕ), t.occb[k]? = some ob → ob.Pairwise (· < ·) ∧ ob.length = nbeta ∧
      ∃ o, occb[k]? = some o ∧ ∀ x, x ∈ ob ↔ x < f ∨ ∃ c ∈ o, x = c + f) ∧
    (∀ (k : ℕ) (so : List ℕ), t.occSo[k]? = some so → so.Pairwise (· < ·) ∧ so.length = nalpha + nbeta ∧
      ∃ oa ob, t.occa[k]? = some oa ∧ t.occb[k]? = some ob ∧
        ∀ x, x ∈ so ↔ x ∈ oa ∨ ∃ c ∈ ob, x = c + nao) := by
  obtain ⟨a0, b0, ha0, hb0, hla, hlb, hoa, hob, hk, ea, eb, es, ec, -⟩ := init_ok h
  have la := (ha a0 (List.mem_of_head? ha0)).2
  have lb := (hb b0 (List.mem_of_head? hb0)).2
  have fa : nalpha - a0.length = f := by omega
  have fb : nbeta - b0.length = f := by omega
  rw [fa, fb, addCore_fst] at ea
  rw [fa, fb, addCore_snd] at eb
  have na : t.occa.length = kept numdets coeffs.length := by rw [ea]; simp; omega
  have nb : t.occb.length = kept numdets coeffs.length := by rw [eb]; simp; omega
  have nc : t.coeffs.length = kept numdets coeffs.length := by rw [ec]; simp; omega
  have A : ∀ (k : ℕ) (oa : List ℕ), t.occa[k]? = some oa → oa.Pairwise (· < ·) ∧ oa.length = nalpha ∧
      ∃ o, occa[k]? = some o ∧ ∀ x, x ∈ oa ↔ x < f ∨ ∃ c ∈ o, x = c + f := by
    intro k oa hk'
    rw [ea, List.getElem?_take] at hk'
    split_ifs at hk' with hlt
    rw [List.getElem?_map, Option.map_eq_some_iff] at hk'
    obtain ⟨o, ho, rfl⟩ := hk'
    have hm := List.mem_of_getElem? ho
    exact ⟨core_sorted f o (ha o hm).1, by simp [(ha o hm).2, hfa], o, ho, core_mem f o⟩
  have B : ∀ (k : ℕ) (ob : List ℕ), t.occb[k]? = some ob → ob.Pairwise (· < ·) ∧ ob.length = nbeta ∧
      ∃ o, occb[k]? = some o ∧ ∀ x, x ∈ ob ↔ x < f ∨ ∃ c ∈ o, x = c + f := by
    intro k ob hk'
    rw [eb, List.getElem?_take] at hk'
    split_ifs at hk' with hlt
    rw [List.getElem?_map, Option.map_eq_some_iff] at hk'
    obtain ⟨o, ho, rfl⟩ := hk'
    have hm := List.mem_of_getElem? ho
    exact ⟨core_sorted f o (hb o hm).1, by simp [(hb o hm).2, hfb], o, ho, core_mem f o⟩
  refine ⟨by omega, by omega, by rw [es]; simp; omega, ?_, ?_, A, B, ?_⟩
  · intro hn
    rw [ec, kept, if_pos hn]; simp
  · intro hn
    rw [ec, kept, if_neg (by omega)]
  · intro k so hso
    rw [es, List.getElem?_map, Option.map_eq_some_iff] at hso
    obtain ⟨⟨oa, ob⟩, hz, rfl⟩ := hso
    rw [List.getElem?_zip_eq_some] at hz
    obtain ⟨pa, qa, o, ho, ma⟩ := A k oa hz.1
    obtain ⟨pb, qb, o', ho', mb⟩ := B k ob hz.2
    have hmem := List.mem_of_getElem? ho
    have hlt : ∀ x ∈ oa, x < nao := by
      intro x hx
      rcases (ma x).1 hx with h1 | ⟨c, hc, rfl⟩
      · omega
      · exact hnao o hmem c hc
    have hpw : (oa ++ ob.map (· + nao)).Pairwise (· < ·) := by
      rw [List.pairwise_append, List.pairwise_map]
      refine ⟨pa, pb.imp fun h => by omega, ?_⟩
      intro x hx y hy
      simp only [List.mem_map] at hy
      obtain ⟨c, _, rfl⟩ := hy
      have := hlt x hx
      omega
    have hms : (oa ++ ob.map (· + nao)).mergeSort (· ≤ ·) = oa ++ ob.map (· + nao) := by
      apply List.mergeSort_of_pairwise
      exact hpw.imp fun h => by simpa using h.le
    refine ⟨by simpa only [hms] using hpw, ?_, oa, ob, hz.1, hz.2, ?_⟩
    · simp only [hms]; simp [qa, qb]
    · intro x
      simp only [hms]; simp [eq_comm]

/-- **C101.** The number of alpha electrons is always right, the number of beta electrons is right
exactly if both spins have the same number of frozen electrons. -/
theorem beta_count_iff {nalpha nbeta nao : ℕ} {useCas : Bool} {numdets : ℤ} {coeffs : List ℂ}
    {occa occb : List (List ℕ)} {t : Trial} {ca cb : ℕ}
    (h : init nalpha nbeta nao useCas numdets coeffs occa occb = .ok t)
    (ha : ∀ o ∈ occa, o.length = ca) (hb : ∀ o ∈ occb, o.length = cb) (ht : t.coeffs ≠ []) :
    (∀ o ∈ t.occa, o.length = nalpha) ∧
    ((∀ o ∈ t.occb, o.length = nbeta) ↔ (nalpha : ℤ) - ca = (nbeta : ℤ) - cb) := by
  obtain ⟨a0, b0, ha0, hb0, hla, hlb, hoa, hob, hk, ea, eb, es, ec, -⟩ := init_ok h
  have la := ha a0 (List.mem_of_head? ha0)
  have lb := hb b0 (List.mem_of_head? hb0)
  have hpos : 0 < kept numdets coeffs.length := by
    rcases Nat.eq_zero_or_pos (kept numdets coeffs.length) with h0 | h0
    · rw [h0, List.take_zero] at ec; exact absurd ec ht
    · exact h0
  rw [la, lb] at eb
  rw [la, lb, addCore_fst] at ea
  rw [la] at hla
  rw [lb] at hlb
  constructor
  · intro o ho
    rw [ea] at ho
    obtain ⟨o', ho', rfl⟩ := List.mem_map.1 (List.mem_of_mem_take ho)
    simp [ha o' ho']; omega
  · constructor
    · intro hall
      obtain ⟨b1, occb', rfl⟩ : ∃ b1 l, occb = b1 :: l := by
        cases occb with
        | nil => cases hb0
        | cons b1 l => exact ⟨b1, l, rfl⟩
      have l1 := hb b1 (by simp)
      obtain ⟨m, hm⟩ : ∃ m, kept numdets coeffs.length = m + 1 := ⟨_, (Nat.succ_pred_eq_of_pos hpos).symm⟩
      rw [hm] at eb
      unfold addCore at eb
      split_ifs at eb with hf
      · have := hall (List.range (nalpha - ca) ++ b1.map (· + (nbeta - cb))) (by rw [eb]; simp)
        simp [l1] at this
        omega
      · have := hall b1 (by rw [eb]; simp)
        omega
    · intro heq o ho
      have e : nbeta - cb = nalpha - ca := by omega
      rw [e, addCore_snd] at eb
      rw [eb] at ho
      obtain ⟨o', ho', rfl⟩ := List.mem_map.1 (List.mem_of_mem_take ho)
      simp [hb o' ho']; omega

/-- **C101.** With the active electrons chosen by `get_ci`, both spins have the same number of frozen
electrons exactly if the number of active electrons has the parity of the spin. -/
theorem frozen_balanced_iff (nalpha nbeta neleccas spin : ℤ) (hs : nalpha - nbeta = spin) :
    nalpha - (activeElectrons neleccas spin).1 = nbeta - (activeElectrons neleccas spin).2 ↔
      (neleccas + spin) % 2 = 0 := by
  simp only [activeElectrons]
  omega

/-- **C101, disagreement.** A high-spin active space (no active beta electrons) on top of a
closed-shell core cannot be used: the maximum over the empty beta occupations raises, whatever the
determinants and coefficients. -/
theorem high_spin_fails (nalpha nbeta nao : ℕ) (useCas : Bool) (numdets : ℤ) (coeffs : List ℂ)
    (occa occb : List (List ℕ)) (hb : 0 < nbeta) (hl : occa.length = occb.length)
    (hc : occa.length = coeffs.length) (he : ∀ o ∈ occb, o = []) :
    init nalpha nbeta nao useCas numdets coeffs occa occb = .error "ValueError" := by
  have hz : maxEntry occb = none := by
    unfold maxEntry
    have : occb.flatten = [] := by
      rw [List.flatten_eq_nil_iff]; exact he
    rw [this]; rfl
  have hm : maxOrbital nbeta occa occb = .error "ValueError" := by
    unfold maxOrbital
    rw [if_pos hb, hz]
    cases maxEntry occa <;> rfl
  unfold init
  rw [if_neg (by omega), hm]

example : init 3 3 6 true (-1) [1, 2] [[0, 1], [0, 2]] [[0, 1], [1, 3]] =
    .ok ⟨[[0, 1, 2], [0, 1, 3]], [[0, 1, 2], [0, 2, 4]],
      [[0, 1, 2, 6, 7, 8], [0, 1, 3, 6, 8, 10]], [1, 2], 4, 1⟩ := by
  simp [init, maxOrbital, maxEntry, addCore, List.max?, List.mergeSort, List.range, List.range.loop,
    List.MergeSort.Internal.splitInTwo]

/-- Four electrons with spin two, both active electrons of spin alpha. -/
example : init 3 1 4 true (-1) [1] [[0, 1]] [[]] = .error "ValueError" :=
  high_spin_fails 3 1 4 true (-1) [1] [[0, 1]] [[]] (by norm_num) rfl rfl (by simp)

/-! ### C102: overlap with a walker -/

/-- The overlap of the whole expansion with a walker. -/
noncomputable def fullOverlap {na nb : ℕ} (t : Trial) (Wa : ℕ → Fin na → ℂ) (Wb : ℕ → Fin nb → ℂ) : ℂ :=
  ∑ k ∈ Finset.range t.coeffs.length, star (t.coeffs.getD k 0) *
    ((rows Wa (t.occa.getD k [])).det * (rows Wb (t.occb.getD k [])).det)

/-- The walker made of unit vectors of the orbitals in `l`. -/
def unitWalker (n : ℕ) (l : List ℕ) (p : ℕ) (j : Fin n) : ℂ := if p = l.getD j 0 then 1 else 0

theorem det_unit_same {n : ℕ} (l : List ℕ) (hl : l.Nodup) (hn : l.length = n) :
    (rows (unitWalker n l) l).det = 1 := by
  have : rows (unitWalker n l) l = 1 := by
    ext k j
    have hk : (k : ℕ) < l.length := by omega
    have hj : (j : ℕ) < l.length := by omega
    simp only [rows, unitWalker, Matrix.of_apply, Matrix.one_apply, List.getD_eq_getElem _ _ hk,
      List.getD_eq_getElem _ _ hj, hl.getElem_inj_iff, Fin.ext_iff]
  rw [this, Matrix.det_one]

theorem det_unit_other {n : ℕ} (l m : List ℕ) (hl : l.Pairwise (· < ·)) (hm : m.Pairwise (· < ·))
    (ln : l.length = n) (mn : m.length = n) (hne : l ≠ m) :
    (rows (unitWalker n l) m).det = 0 := by
  have hsub : ¬ m ⊆ l := by
    intro hs
    have hnd : m.Nodup := hm.imp fun h => h.ne
    have hnl : l.Nodup := hl.imp fun h => h.ne
    have hp : m.Perm l := (hnd.subperm hs).perm_of_length_le (by omega)
    exact hne (hp.symm.eq_of_pairwise (fun a b _ _ h1 h2 => absurd h1 (by omega)) hl hm)
  simp only [List.subset_def, not_forall] at hsub
  obtain ⟨x, hx, hxl⟩ := hsub
  obtain ⟨k, hk, rfl⟩ := List.getElem_of_mem hx
  refine Matrix.det_eq_zero_of_row_eq_zero ⟨k, by omega⟩ fun j => ?_
  have hj : (j : ℕ) < l.length := by omega
  simp only [rows, unitWalker, Matrix.of_apply, List.getD_eq_getElem _ _ hk,
    List.getD_eq_getElem _ _ hj, ite_eq_right_iff]
  intro h
  exact absurd (h ▸ List.getElem_mem hj) hxl

/-- **C102, proved part.** With one determinant the overlap of the code is the overlap with the trial
state, up to the constant coefficient. -/
theorem overlap_partial {na nb : ℕ} (t : Trial) (h : t.coeffs.length = 1)
    (Wa : ℕ → Fin na → ℂ) (Wb : ℕ → Fin nb → ℂ) :
    fullOverlap t Wa Wb = star (t.coeffs.getD 0 0) * ovlpCode t Wa Wb := by
  simp [fullOverlap, ovlpCode, h]

/-- **C102, disagreement.** For sorted, pairwise different determinants, the overlap of the code is
proportional to the overlap with the trial state for all walkers only if all coefficients other than
the first are zero: they have no effect on the walk. -/
theorem overlap_iff {na nb : ℕ} (t : Trial) (hc : t.coeffs.length ≠ 0)
    (ha : ∀ k < t.coeffs.length, (t.occa.getD k []).Pairwise (· < ·) ∧ (t.occa.getD k []).length = na)
    (hb : ∀ k < t.coeffs.length, (t.occb.getD k []).Pairwise (· < ·) ∧ (t.occb.getD k []).length = nb)
    (hd : ∀ k < t.coeffs.length, ∀ l < t.coeffs.length,
      t.occa.getD k [] = t.occa.getD l [] → t.occb.getD k [] = t.occb.getD l [] → k = l) :
    (∃ z : ℂ, ∀ (Wa : ℕ → Fin na → ℂ) (Wb : ℕ → Fin nb → ℂ),
      fullOverlap t Wa Wb = z * ovlpCode t Wa Wb) ↔
    ∀ k < t.coeffs.length, k ≠ 0 → t.coeffs.getD k 0 = 0 := by
  have key : ∀ k < t.coeffs.length, ∀ l < t.coeffs.length,
      (rows (unitWalker na (t.occa.getD k [])) (t.occa.getD l [])).det *
      (rows (unitWalker nb (t.occb.getD k [])) (t.occb.getD l [])).det = if l = k then 1 else 0 := by
    intro k hk l hl
    split_ifs with e
    · subst e
      rw [det_unit_same _ ((ha l hl).1.imp fun h => h.ne) (ha l hl).2,
        det_unit_same _ ((hb l hl).1.imp fun h => h.ne) (hb l hl).2, one_mul]
    · by_cases e1 : t.occa.getD k [] = t.occa.getD l []
      · by_cases e2 : t.occb.getD k [] = t.occb.getD l []
        · exact absurd (hd k hk l hl e1 e2).symm e
        · rw [det_unit_other _ _ (hb k hk).1 (hb l hl).1 (hb k hk).2 (hb l hl).2 e2, mul_zero]
      · rw [det_unit_other _ _ (ha k hk).1 (ha l hl).1 (ha k hk).2 (ha l hl).2 e1, zero_mul]
  constructor
  · rintro ⟨z, hz⟩ k hk hk0
    have h := hz (unitWalker na (t.occa.getD k [])) (unitWalker nb (t.occb.getD k []))
    rw [ovlpCode, key k hk 0 (by omega), if_neg (Ne.symm hk0), mul_zero, fullOverlap,
      Finset.sum_congr rfl (fun l hl => by rw [key k hk l (Finset.mem_range.1 hl)])] at h
    simpa [hk] using h
  · intro h
    refine ⟨star (t.coeffs.getD 0 0), fun Wa Wb => ?_⟩
    rw [fullOverlap, Finset.sum_eq_single 0]
    · rfl
    · intro k hk hk0
      rw [h k (Finset.mem_range.1 hk) hk0, star_zero, zero_mul]
    · intro h0
      exact absurd (Finset.mem_range.2 (Nat.pos_of_ne_zero hc)) h0

/-- Two determinants with both coefficients not zero. -/
example : ¬ ∃ z : ℂ, ∀ (Wa : ℕ → Fin 1 → ℂ) (Wb : ℕ → Fin 1 → ℂ),
    fullOverlap ⟨[[0], [1]], [[0], [1]], [], [1, 1], 2, 0⟩ Wa Wb =
      z * ovlpCode ⟨[[0], [1]], [[0], [1]], [], [1, 1], 2, 0⟩ Wa Wb := by
  rw [overlap_iff]
  · intro h
    have := h 1 (by simp) (by simp)
    simp at this
  · simp
  · intro k hk; simp at hk; interval_cases k <;> simp
  · intro k hk; simp at hk; interval_cases k <;> simp
  · intro k hk l hl; simp at hk hl; interval_cases k <;> interval_cases l <;> simp

/-! ### C103: the sign of an excitation -/

theorem rows_swap {n : ℕ} (W : ℕ → Fin n → ℂ) (a : List ℕ) (x y : ℕ) (b : List ℕ)
    (hn : (a ++ x :: y :: b).length = n) :
    (rows W (a ++ x :: y :: b)).det = -(rows W (a ++ y :: x :: b)).det := by
  have h1 : a.length < n := by simp at hn; omega
  have h2 : a.length + 1 < n := by simp at hn; omega
  have hne : (⟨a.length, h1⟩ : Fin n) ≠ ⟨a.length + 1, h2⟩ := by simp
  have e : rows W (a ++ x :: y :: b) =
      (rows W (a ++ y :: x :: b)).submatrix (Equiv.swap ⟨a.length, h1⟩ ⟨a.length + 1, h2⟩) id := by
    ext k j
    simp only [rows, Matrix.of_apply, Matrix.submatrix_apply, id]
    congr 1
    rcases lt_trichotomy (k : ℕ) a.length with hk | hk | hk
    · rw [Equiv.swap_apply_of_ne_of_ne (by simp [Fin.ext_iff]; omega) (by simp [Fin.ext_iff]; omega),
        List.getD_append _ _ _ _ hk, List.getD_append _ _ _ _ hk]
    · have : k = ⟨a.length, h1⟩ := Fin.ext hk
      rw [this, Equiv.swap_apply_left]
      simp
    · by_cases hk' : (k : ℕ) = a.length + 1
      · have : k = ⟨a.length + 1, h2⟩ := Fin.ext hk'
        rw [this, Equiv.swap_apply_right]
        simp
      · rw [Equiv.swap_apply_of_ne_of_ne (by simp [Fin.ext_iff]; omega)
          (by simp [Fin.ext_iff]; omega), List.getD_append_right _ _ _ _ (by omega),
          List.getD_append_right _ _ _ _ (by omega)]
        obtain ⟨m, hm⟩ : ∃ m, (k : ℕ) - a.length = m + 2 := ⟨k - a.length - 2, by omega⟩
        rw [hm]
        simp
  rw [e, Matrix.det_permute, Equiv.Perm.sign_swap hne]
  simp

theorem rows_move {n : ℕ} (W : ℕ → Fin n → ℂ) (m : List ℕ) :
    ∀ (a : List ℕ) (x : ℕ) (b : List ℕ), (a ++ x :: (m ++ b)).length = n →
    (rows W (a ++ x :: (m ++ b))).det = (-1) ^ m.length * (rows W (a ++ m ++ x :: b)).det := by
  induction m with
  | nil => intro a x b _; simp
  | cons y m ih =>
    intro a x b hn
    rw [List.cons_append, rows_swap W a x y (m ++ b) (by simpa using hn)]
    have := ih (a ++ [y]) x b (by simp at hn ⊢; omega)
    simp only [List.append_assoc, List.cons_append, List.nil_append] at this
    rw [this]
    simp only [List.length_cons, pow_succ, List.append_assoc, List.cons_append]
    ring

/-- Number of pairs with an element of `q` after one not in `q`. -/
def inversions (q : ℕ → Bool) : List ℕ → ℕ
  | [] => 0
  | x :: l => inversions q l + if q x then 0 else (l.filter q).length

theorem rows_sort {n : ℕ} (W : ℕ → Fin n → ℂ) (q : ℕ → Bool) (l : List ℕ) :
    ∀ a : List ℕ, (a ++ l).length = n → (rows W (a ++ l)).det =
      (-1) ^ inversions q l * (rows W (a ++ (l.filter q ++ l.filter fun x => !q x))).det := by
  induction l with
  | nil => intro a _; simp [inversions]
  | cons x l ih =>
    intro a hn
    have h := ih (a ++ [x]) (by simpa using hn)
    simp only [List.append_assoc, List.cons_append, List.nil_append] at h
    rw [h]
    by_cases hx : q x
    · simp [inversions, hx]
    · have hx' : q x = false := by simpa using hx
      have hlen : (l.filter q).length + (l.filter fun x => !q x).length = l.length :=
        (List.length_eq_length_filter_add q).symm
      rw [rows_move W (l.filter q) a x _ (by simp at hn ⊢; omega)]
      simp only [inversions, hx', List.filter_cons, pow_add, List.append_assoc]
      simp
      ring

/-- The loops of the code count the inversions if the orbitals come in the order of the
determinant. -/
theorem moves_eq (q : ℕ → Bool) : ∀ (l pre : List ℕ), (pre ++ l).Nodup →
    moves (pre ++ l) (pre.filter q).length (l.filter q) =
      some ((inversions q l : ℤ) + (l.filter q).length * (pre.filter fun x => !q x).length) := by
  intro l
  induction l with
  | nil => intro pre _; simp [moves, inversions]
  | cons x l ih =>
    intro pre hnd
    have h := ih (pre ++ [x]) (by simpa using hnd)
    have hlen : pre.length = (pre.filter q).length + (pre.filter fun x => !q x).length :=
      List.length_eq_length_filter_add q
    by_cases hx : q x
    · have hnot : x ∉ pre := by
        intro hm
        exact (List.nodup_append.1 hnd).2.2 x hm x (by simp) rfl
      have hpos : position (pre ++ x :: l) x = some pre.length := by
        rw [position, if_pos (by simp), List.idxOf_append_of_notMem hnot]
        simp
      simp only [List.filter_append, List.filter_cons, hx, if_true, List.filter_nil,
        List.length_append, List.length_singleton, List.append_assoc, List.cons_append,
        List.nil_append, Bool.not_true, Bool.false_eq_true, if_false, List.append_nil] at h
      rw [List.filter_cons_of_pos hx, moves, hpos, h]
      simp only [inversions, hx, if_true, List.length_cons]
      congr 1
      push_cast
      rw [show (pre.length : ℤ) = (pre.filter q).length + (pre.filter fun x => !q x).length from by
        exact_mod_cast hlen]
      ring
    · have hx' : q x = false := by simpa using hx
      simp only [List.filter_append, List.filter_cons, hx', List.filter_nil,
        List.length_append, List.length_singleton, List.append_assoc, List.cons_append,
        List.nil_append, Bool.not_false, Bool.false_eq_true, if_false, if_true, List.append_nil] at h
      rw [List.filter_cons_of_neg (by simp [hx']), h]
      simp only [inversions, hx', Bool.false_eq_true, if_false]
      congr 1
      push_cast
      ring

/-- The reference `R` with the `i`-th orbital missing in `D` replaced, at its place, by
the `i`-th orbital of `D` missing in `R`. -/
def replaced (R D : List ℕ) : List ℕ :=
  R.map fun o => if o ∈ D then o else (D.filter (· ∉ R)).getD ((R.filter (· ∉ D)).idxOf o) 0

theorem inversions_map (q : ℕ → Bool) (g : ℕ → ℕ) (l : List ℕ) :
    inversions q (l.map g) = inversions (q ∘ g) l := by
  induction l with
  | nil => rfl
  | cons x l ih => simp [inversions, ih, List.filter_map, Function.comp_def]

theorem inversions_congr (q q' : ℕ → Bool) (l : List ℕ) (h : ∀ x ∈ l, q x = q' x) :
    inversions q l = inversions q' l := by
  induction l with
  | nil => rfl
  | cons x l ih =>
    have h' : ∀ y ∈ l, q y = q' y := fun y hy => h y (List.mem_cons_of_mem _ hy)
    simp only [inversions]
    rw [ih h', h x (by simp), List.filter_congr h']

theorem sign_pow (a b : ℕ) :
    (((if ((a : ℤ) + b) % 2 = 1 then -1 else 1 : ℤ)) : ℂ) = (-1) ^ (a + b) := by
  rcases Nat.even_or_odd (a + b) with h | h
  · rw [h.neg_one_pow, if_neg]
    · simp
    · obtain ⟨m, hm⟩ := h; omega
  · rw [h.neg_one_pow, if_pos]
    · simp
    · obtain ⟨m, hm⟩ := h; omega

/-- **C103.** Let `R` be the reference and `D` another determinant with the same number of electrons,
both sorted.  The overlap of every walker with `D` is the overlap with the reference in which the
orbitals are replaced in place, times the sign computed by the code. -/
theorem permutation_sign {n : ℕ} (R D : List ℕ) (hR : R.Pairwise (· < ·)) (hD : D.Pairwise (· < ·))
    (hnR : R.length = n) (hnD : D.length = n) (W : ℕ → Fin n → ℂ) :
    (rows W D).det = permutationSign (D.filter (· ∉ R)) (R.filter (· ∉ D)) R D *
      (rows W (replaced R D)).det := by
  have ndR : R.Nodup := hR.imp fun h => h.ne
  have ndD : D.Nodup := hD.imp fun h => h.ne
  set g : ℕ → ℕ := fun o => if o ∈ D then o else
    (D.filter (· ∉ R)).getD ((R.filter (· ∉ D)).idxOf o) 0 with hg
  have hcommon : (D.filter (· ∈ R)) = R.filter (· ∈ D) := by
    refine List.Perm.eq_of_pairwise (le := (· < ·))
      (fun a b _ _ h1 h2 => absurd h1 (by omega)) (hD.filter _) (hR.filter _) ?_
    refine (List.perm_ext_iff_of_nodup (ndD.filter _) (ndR.filter _)).2 fun x => ?_
    simp [and_comm]
  have c1 : R.length = (R.filter (· ∉ D)).length + (R.filter (· ∈ D)).length := by
    have := List.length_eq_length_filter_add (l := R) (fun x => decide (x ∉ D))
    simpa using this
  have c2 : D.length = (D.filter (· ∉ R)).length + (D.filter (· ∈ R)).length := by
    have := List.length_eq_length_filter_add (l := D) (fun x => decide (x ∉ R))
    simpa using this
  have hlen : (R.filter (· ∉ D)).length = (D.filter (· ∉ R)).length := by
    rw [hcommon] at c2; omega
  have hgq : ∀ x ∈ R, (decide (g x ∉ R)) = decide (x ∉ D) := by
    intro x hx
    by_cases hxD : x ∈ D
    · simp [hg, hxD, hx]
    · have hi : (R.filter (· ∉ D)).idxOf x < (D.filter (· ∉ R)).length := by
        rw [← hlen]; exact List.idxOf_lt_length_iff.2 (by simp [hx, hxD])
      have hm := List.getElem_mem hi
      have hgx : g x = (D.filter (· ∉ R))[(R.filter (· ∉ D)).idxOf x] := by
        simp only [hg, if_neg hxD]
        exact List.getD_eq_getElem _ _ hi
      rw [← hgx] at hm
      have := (List.mem_filter.1 hm).2
      simp only [decide_eq_true_eq] at this
      simp [this, hxD]
  have hrep : replaced R D = R.map g := rfl
  have f1 : (R.map g).filter (fun x => decide (x ∉ R)) = D.filter (· ∉ R) := by
    rw [List.filter_map, List.filter_congr (p := (fun x => decide (x ∉ R)) ∘ g)
      (q := fun x => decide (x ∉ D)) hgq]
    refine List.ext_getElem (by simpa using hlen) fun i h1 h2 => ?_
    rw [List.getElem_map]
    have h1' : i < (R.filter (· ∉ D)).length := by simpa using h1
    have hm := List.getElem_mem h1'
    have hnot : (R.filter (· ∉ D))[i] ∉ D := by simpa using (List.mem_filter.1 hm).2
    simp only [hg, if_neg hnot]
    rw [(ndR.filter _).idxOf_getElem, List.getD_eq_getElem _ _ h2]
  have f2 : (R.map g).filter (fun x => !decide (x ∉ R)) = R.filter (· ∈ D) := by
    rw [List.filter_map, List.filter_congr (q := fun x => decide (x ∈ D))]
    · refine (List.map_congr_left (g := id) fun x hx => ?_).trans (List.map_id _)
      have : x ∈ D := by simpa using (List.mem_filter.1 hx).2
      simp [hg, this]
    · intro x hx
      have := hgq x hx
      simp only [Function.comp_apply]
      rw [this]; simp
  have hDet := rows_sort W (fun x => decide (x ∉ R)) D [] (by simpa using hnD)
  have hRet := rows_sort W (fun x => decide (x ∉ R)) (R.map g) [] (by simpa using hnR)
  rw [List.nil_append, List.nil_append] at hDet hRet
  rw [f1, f2, inversions_map,
    inversions_congr ((fun x => decide (x ∉ R)) ∘ g) (fun x => decide (x ∉ D)) R hgq] at hRet
  have f3 : D.filter (fun x => !decide (x ∉ R)) = R.filter (· ∈ D) := by
    rw [← hcommon]; simp
  rw [f3] at hDet
  have m1 := moves_eq (fun x => decide (x ∉ R)) D [] (by simpa using ndD)
  have m2 := moves_eq (fun x => decide (x ∉ D)) R [] (by simpa using ndR)
  simp only [List.nil_append, List.filter_nil, List.length_nil, Nat.cast_zero, mul_zero, add_zero]
    at m1 m2
  unfold permutationSign
  rw [m1, m2]
  simp only
  rw [hrep, hRet, hDet, sign_pow, ← mul_assoc, ← pow_add, add_assoc, ← two_mul,
    pow_add _ _ (2 * _), pow_mul (-1 : ℂ) 2]
  simp

/-- A single excitation `1 → 4` out of `0, 1, 2`. -/
example : permutationSign [4] [1] [0, 1, 2] [0, 2, 4] = -1 ∧ replaced [0, 1, 2] [0, 2, 4] = [0, 4, 2] := by
  decide

end OpenMS.MultiDet
