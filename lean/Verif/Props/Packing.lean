import Verif.Model.Packing
import Mathlib.Algebra.BigOperators.Intervals
import Mathlib.Data.List.Basic
import Mathlib.Algebra.BigOperators.Fin
import Mathlib.Data.Nat.Cast.Basic
import Mathlib.Algebra.BigOperators.Ring.Finset
import Mathlib.Tactic.Ring
import Mathlib.Tactic.NormNum
import Mathlib.Data.Rat.Defs
import Mathlib.Algebra.Field.Rat

/-!
# C31: packed symmetric matrices
-/

namespace OpenMS.Boson

/-- Triangular numbers. -/
theorem tri_succ (n : ℕ) : (n + 1) * (n + 1 + 1) / 2 = n * (n + 1) / 2 + (n + 1) := by
  rw [show (n + 1) * (n + 1 + 1) = n * (n + 1) + 2 * (n + 1) by ring,
    Nat.add_mul_div_left _ _ (by norm_num)]

theorem tri_mono {m n : ℕ} (h : m ≤ n) : m * (m + 1) / 2 ≤ n * (n + 1) / 2 :=
  Nat.div_le_div_right (Nat.mul_le_mul h (by omega))

theorem packedIndex_of_le (i j : ℕ) (h : j ≤ i) : packedIndex i j = i * (i + 1) / 2 + j := by
  simp [packedIndex, Nat.not_lt.2 h]

/-- **C31**: the packed index is symmetric and maps the pairs `j ≤ i < n` one-to-one onto the
numbers below `n (n + 1) / 2`. -/
theorem packed_index_bijection (n : ℕ) :
    (∀ i j, packedIndex i j = packedIndex j i) ∧
    (∀ i j, i < n → j < n → packedIndex i j < n * (n + 1) / 2) ∧
    (∀ i j i' j', j ≤ i → j' ≤ i' → packedIndex i j = packedIndex i' j' → i = i' ∧ j = j') ∧
    (∀ m < n * (n + 1) / 2, ∃ i j, j ≤ i ∧ i < n ∧ packedIndex i j = m) := by
  have hsymm : ∀ i j, packedIndex i j = packedIndex j i := by
    intro i j
    unfold packedIndex
    rcases lt_trichotomy i j with h | h | h
    · simp [h, Nat.not_lt.2 h.le]
    · simp [h]
    · simp [h, Nat.not_lt.2 h.le]
  have hlt : ∀ i j, j ≤ i → i < n → packedIndex i j < n * (n + 1) / 2 := by
    intro i j hj hi
    rw [packedIndex_of_le i j hj]
    have h1 := tri_succ i
    have h2 := tri_mono (m := i + 1) (n := n) hi
    omega
  refine ⟨hsymm, ?_, ?_, ?_⟩
  · intro i j hi hj
    rcases Nat.le_total j i with h | h
    · exact hlt i j h hi
    · rw [hsymm]; exact hlt j i h hj
  · intro i j i' j' h h' he
    rw [packedIndex_of_le i j h, packedIndex_of_le i' j' h'] at he
    have hii : i = i' := by
      rcases lt_trichotomy i i' with hl | hl | hl
      · have h1 := tri_succ i
        have h2 := tri_mono (m := i + 1) (n := i') hl
        omega
      · exact hl
      · have h1 := tri_succ i'
        have h2 := tri_mono (m := i' + 1) (n := i) hl
        omega
    subst hii
    exact ⟨rfl, by omega⟩
  · clear hlt
    induction n with
    | zero => intro m hm; simp at hm
    | succ n ih =>
      intro m hm
      rw [tri_succ] at hm
      by_cases h : m < n * (n + 1) / 2
      · obtain ⟨i, j, h1, h2, h3⟩ := ih m h
        exact ⟨i, j, h1, by omega, h3⟩
      · refine ⟨n, m - n * (n + 1) / 2, by omega, by omega, ?_⟩
        rw [packedIndex_of_le _ _ (by omega)]
        omega

variable {K : Type*}

theorem packRow (M : ℕ → ℕ → K) (i n : ℕ) (acc : List K) :
    (List.range n).foldl (fun packed j => packed ++ [M i j]) acc =
      acc ++ (List.range n).map fun j => M i j := by
  induction n with
  | zero => simp
  | succ n ih => rw [List.range_succ, List.foldl_append, ih]; simp

theorem packSymmetric_succ (M : ℕ → ℕ → K) (n : ℕ) :
    packSymmetric M (n + 1) = packSymmetric M n ++ (List.range (n + 1)).map fun j => M n j := by
  unfold packSymmetric
  rw [List.range_succ, List.foldl_append, List.foldl_cons, List.foldl_nil, packRow, ← List.range_succ]

/-- **C31**: packing lists the lower triangle at the packed positions. -/
theorem pack_entries (M : ℕ → ℕ → K) (n : ℕ) :
    (packSymmetric M n).length = n * (n + 1) / 2 ∧
      ∀ i j, j ≤ i → i < n → (packSymmetric M n)[packedIndex i j]? = some (M i j) := by
  induction n with
  | zero => simp [packSymmetric]
  | succ n ih =>
    obtain ⟨hl, he⟩ := ih
    rw [packSymmetric_succ]
    refine ⟨by rw [List.length_append, hl, tri_succ]; simp, ?_⟩
    intro i j hj hi
    rcases Nat.lt_or_ge i n with h | h
    · have hlt := (packed_index_bijection n).2.1 i j h (by omega)
      rw [List.getElem?_append_left (by omega)]
      exact he i j hj h
    · have hin : i = n := by omega
      subst hin
      rw [packedIndex_of_le i j hj, List.getElem?_append_right (by omega), hl,
        Nat.add_sub_cancel_left]
      simp [show j < i + 1 by omega]

variable [Field K]

/-- The state of `unpack_symmetric` after the complete rows below `n`. -/
def Unpacked (A : List K) (fac : K) (n : ℕ) (F : ℕ → ℕ → K) : Prop :=
  ∀ p q, F p q = if p < n ∧ q < n then
    (if p = q then A.getD (packedIndex p q) 0 else A.getD (packedIndex p q) 0 / fac) else 0

theorem unpackRow_spec (A : List K) (fac : K) (i : ℕ) (F : ℕ → ℕ → K) (m : ℕ) (hm : m ≤ i) :
    ((List.range m).foldl (fun (s : (ℕ → ℕ → K) × ℕ) j =>
      (setEntry (setEntry s.1 i j (A.getD s.2 0 / fac)) j i (A.getD s.2 0 / fac), s.2 + 1))
      (F, i * (i + 1) / 2)) =
    (fun p q => if p = i ∧ q < m then A.getD (i * (i + 1) / 2 + q) 0 / fac
      else if q = i ∧ p < m then A.getD (i * (i + 1) / 2 + p) 0 / fac else F p q,
      i * (i + 1) / 2 + m) := by
  induction m with
  | zero => simp
  | succ m ih =>
    rw [List.range_succ, List.foldl_append, ih (by omega), List.foldl_cons, List.foldl_nil]
    ext p q
    · simp only [setEntry]
      grind
    · simp; omega

theorem unpack_spec (A : List K) (fac : K) (n : ℕ) :
    Unpacked A fac n (unpackSymmetric A n fac) := by
  suffices h : ∃ F, ((List.range n).foldl (fun (s : (ℕ → ℕ → K) × ℕ) i =>
      let s := unpackRow A fac i s
      (setEntry s.1 i i (A.getD s.2 0), s.2 + 1)) (fun _ _ => 0, 0)) = (F, n * (n + 1) / 2) ∧
      Unpacked A fac n F by
    obtain ⟨F, h1, h2⟩ := h
    unfold unpackSymmetric
    rw [h1]; exact h2
  induction n with
  | zero => exact ⟨fun _ _ => 0, by simp, by intro p q; simp⟩
  | succ n ih =>
    obtain ⟨F, h1, h2⟩ := ih
    rw [List.range_succ, List.foldl_append, h1, List.foldl_cons, List.foldl_nil]
    simp only [unpackRow, unpackRow_spec A fac n F n le_rfl]
    refine ⟨_, by rw [tri_succ]; rfl, ?_⟩
    intro p q
    have hF := h2 p q
    simp only [setEntry]
    have hs : packedIndex p q = packedIndex q p := (packed_index_bijection 0).1 p q
    have hp : p = n → q ≤ n → packedIndex p q = n * (n + 1) / 2 + q := by
      rintro rfl h; exact packedIndex_of_le p q h
    have hq : q = n → p ≤ n → packedIndex p q = n * (n + 1) / 2 + p := by
      rintro rfl h; rw [hs]; exact packedIndex_of_le q p h
    grind (splits := 20)

/-- **C31**: unpacking what was packed gives every entry of a symmetric matrix back. -/
theorem unpack_pack (M : ℕ → ℕ → K) (hM : ∀ i j, M i j = M j i) (n i j : ℕ) (hi : i < n)
    (hj : j < n) : unpackSymmetric (packSymmetric M n) n 1 i j = M i j := by
  rw [unpack_spec _ _ n i j, if_pos ⟨hi, hj⟩]
  have hget : ((packSymmetric M n).getD (packedIndex i j) 0) = M i j := by
    rcases Nat.le_total j i with h | h
    · rw [List.getD_eq_getElem?_getD, (pack_entries M n).2 i j h hi]; rfl
    · rw [(packed_index_bijection 0).1 i j, List.getD_eq_getElem?_getD,
        (pack_entries M n).2 j i h hj, hM i j]; rfl
  rw [hget, div_one, ite_self]

/-- **C31**: packing what was unpacked gives the vector back. -/
theorem pack_unpack (A : List K) (n : ℕ) (hA : A.length = n * (n + 1) / 2) :
    packSymmetric (unpackSymmetric A n 1) n = A := by
  have hl := (pack_entries (unpackSymmetric A n 1) n).1
  apply List.ext_getElem? 
  intro m
  by_cases hm : m < n * (n + 1) / 2
  · obtain ⟨i, j, hj, hi, rfl⟩ := (packed_index_bijection n).2.2.2 m hm
    rw [(pack_entries _ n).2 i j hj hi, unpack_spec _ _ n i j, if_pos ⟨hi, by omega⟩, div_one,
      ite_self, List.getD_eq_getElem _ _ (by omega), List.getElem?_eq_getElem (by omega)]
  · rw [List.getElem?_eq_none (by omega), List.getElem?_eq_none (by omega)]

/-- **C31**: with the off-diagonal entries of one factor doubled, the packed dot product is the
full contraction of two symmetric matrices; `unpack_symmetric` with `fac = 2` undoes the
doubling. -/
theorem packed_dot (M N : ℕ → ℕ → K) (hM : ∀ i j, M i j = M j i) (hN : ∀ i j, N i j = N j i)
    (n : ℕ) :
    ((packSymmetric M n).zipWith (· * ·)
      (packSymmetric (fun i j => if i = j then N i j else 2 * N i j) n)).sum =
    ∑ i ∈ Finset.range n, ∑ j ∈ Finset.range n, M i j * N i j := by
  induction n with
  | zero => simp [packSymmetric]
  | succ n ih =>
    rw [packSymmetric_succ, packSymmetric_succ, List.zipWith_append
      (by rw [(pack_entries _ n).1, (pack_entries _ n).1]), List.sum_append, ih]
    have hrow : (List.zipWith (· * ·) ((List.range (n + 1)).map fun j => M n j)
        ((List.range (n + 1)).map fun j => if n = j then N n j else 2 * N n j)).sum =
        2 * (∑ j ∈ Finset.range n, M n j * N n j) + M n n * N n n := by
      rw [List.zipWith_map, List.zipWith_self]
      rw [List.range_succ, List.map_append, List.sum_append]
      congr 1
      · rw [Finset.mul_sum, Finset.sum_range, ← List.sum_ofFn]
        congr 1
        apply List.ext_getElem (by simp)
        intro m h1 h2
        have : m < n := by simpa using h1
        simp only [List.getElem_map, List.getElem_range, List.getElem_ofFn]
        rw [if_neg (by omega)]
        ring
      · simp
    rw [hrow, Finset.sum_range_succ (n := n)]
    have hcol : ∑ i ∈ Finset.range n, ∑ j ∈ Finset.range (n + 1), M i j * N i j =
        (∑ i ∈ Finset.range n, ∑ j ∈ Finset.range n, M i j * N i j) +
          ∑ j ∈ Finset.range n, M n j * N n j := by
      rw [← Finset.sum_add_distrib]
      apply Finset.sum_congr rfl
      intro i _
      rw [Finset.sum_range_succ, hM i n, hN i n]
    rw [hcol, Finset.sum_range_succ]
    ring

theorem unpack_doubled [CharZero K] (N : ℕ → ℕ → K) (hN : ∀ i j, N i j = N j i) (n i j : ℕ)
    (hi : i < n) (hj : j < n) :
    unpackSymmetric (packSymmetric (fun i j => if i = j then N i j else 2 * N i j) n) n 2 i j =
      N i j := by
  rw [unpack_spec _ _ n i j, if_pos ⟨hi, hj⟩]
  have hget : ((packSymmetric (fun i j => if i = j then N i j else 2 * N i j) n).getD
      (packedIndex i j) 0) = if i = j then N i j else 2 * N i j := by
    rcases Nat.le_total j i with h | h
    · rw [List.getD_eq_getElem?_getD, (pack_entries _ n).2 i j h hi]; rfl
    · rw [(packed_index_bijection 0).1 i j, List.getD_eq_getElem?_getD,
        (pack_entries _ n).2 j i h hj, hN i j]
      simp [eq_comm]
  rw [hget]
  split_ifs with h
  · rfl
  · rw [mul_div_cancel_left₀ _ (by exact_mod_cast (by norm_num : (2 : ℕ) ≠ 0) : (2 : K) ≠ 0)]

/-- A symmetric matrix with distinct entries. -/
example : packSymmetric (fun i j => ((i + 1) * (j + 1) : ℚ)) 2 = [1, 2, 4] := by
  norm_num [packSymmetric, List.range_succ]

end OpenMS.Boson
