import Verif.Model.DisplacementCpp
import Verif.Props.Displacement

/-!
# C151: compiled displacement matrix
-/

namespace OpenMS.DispCpp

open OpenMS.Boson

theorem packedIndexCpp_eq (i j : ℕ) : packedIndexCpp i j = packedIndex i j := by
  unfold packedIndexCpp
  by_cases h : i > j
  · rw [if_pos h, packedIndex_of_le i j (by omega)]
  · rw [if_neg h, ← packed_index_bijection 0 |>.1, packedIndex_of_le j i (by omega)]

/-- Nothing outside the written positions changes. -/
theorem foldl_update_of_ne {ι : Type*} (l : List ι) (w : (ℕ → ℝ) → ι → ℕ → ℝ)
    (a : ℕ) (h : ∀ mem, ∀ x ∈ l, w mem x a = mem a) (mem : ℕ → ℝ) : l.foldl w mem a = mem a := by
  induction l generalizing mem with
  | nil => rfl
  | cons x l ih =>
    rw [List.foldl_cons, ih (fun m y hy => h m y (List.mem_cons_of_mem _ hy)), h _ _ List.mem_cons_self]

/-- A position written by exactly one step of a loop. -/
theorem foldl_update_at {ι : Type*} (l : List ι) (w : (ℕ → ℝ) → ι → ℕ → ℝ) (a : ℕ) (v : ℝ → ℝ)
    (x : ι) (hx : x ∈ l) (hnd : l.Nodup) (h : ∀ mem, w mem x a = v (mem a))
    (h' : ∀ mem, ∀ y ∈ l, y ≠ x → w mem y a = mem a) (mem : ℕ → ℝ) :
    l.foldl w mem a = v (mem a) := by
  induction l generalizing mem with
  | nil => simp at hx
  | cons y l ih =>
    rw [List.foldl_cons]
    obtain ⟨hy, hl⟩ := List.nodup_cons.1 hnd
    rcases List.mem_cons.1 hx with rfl | hx
    · rw [foldl_update_of_ne l w a _, h]
      intro m z hz
      exact h' m z (List.mem_cons_of_mem _ hz) (fun he => hy (he ▸ hz))
    · rw [ih hx hl (fun m z hz => h' m z (List.mem_cons_of_mem _ hz)),
        h' _ _ List.mem_cons_self (fun he => hy (he ▸ hx))]

theorem addr_inj {N a b i j : ℕ} (hi : i < N) (hj : j < N) (h : a * N + i = b * N + j) : a = b ∧ i = j := by
  have h1 : (a * N + i) / N = a := by rw [mul_comm, Nat.mul_add_div (by omega), Nat.div_eq_of_lt hi]; omega
  have h2 : (b * N + j) / N = b := by rw [mul_comm, Nat.mul_add_div (by omega), Nat.div_eq_of_lt hj]; omega
  have : a = b := by rw [← h1, h, h2]
  subst this
  exact ⟨rfl, by omega⟩

theorem fillCpp_apply (N mdim : ℕ) (factor mem0 : ℕ → ℝ) (m n i : ℕ) (hm : m < mdim) (hn : n ≤ m)
    (hi : i < N) : fillCpp N mdim factor mem0 (packedIndexCpp m n * N + i) = valCpp (factor i) m n := by
  have key : ∀ m' n' i', n' ≤ m' → i' < N → packedIndexCpp m' n' * N + i' = packedIndexCpp m n * N + i →
      m' = m ∧ n' = n ∧ i' = i := by
    intro m' n' i' h1 h2 h3
    obtain ⟨h4, h5⟩ := addr_inj h2 hi h3
    rw [packedIndexCpp_eq, packedIndexCpp_eq] at h4
    obtain ⟨h6, h7⟩ := (packed_index_bijection 0).2.2.1 m' n' m n h1 hn h4
    exact ⟨h6, h7, h5⟩
  unfold fillCpp
  refine foldl_update_at _ _ _ (fun _ => valCpp (factor i) m n) m (List.mem_range.2 hm)
    List.nodup_range ?_ ?_ mem0
  · intro mem
    refine foldl_update_at _ _ _ (fun _ => valCpp (factor i) m n) n (List.mem_range.2 (by omega))
      List.nodup_range ?_ ?_ mem
    · intro mem
      refine foldl_update_at _ _ _ (fun _ => valCpp (factor i) m n) i (List.mem_range.2 hi)
        List.nodup_range ?_ ?_ mem
      · intro mem; exact Function.update_self ..
      · intro mem y hy hne
        apply Function.update_of_ne
        intro he
        exact hne ((key m n y hn (List.mem_range.1 hy) he.symm).2.2)
    · intro mem y hy hne
      apply foldl_update_of_ne
      intro mem z hz
      apply Function.update_of_ne
      intro he
      have := List.mem_range.1 hy
      exact hne ((key m y z (by omega) (List.mem_range.1 hz) he.symm).2.1)
  · intro mem x _ hne
    apply foldl_update_of_ne
    intro mem y hy
    apply foldl_update_of_ne
    intro mem z hz
    apply Function.update_of_ne
    intro he
    have := List.mem_range.1 hy
    exact hne ((key x y z (by omega) (List.mem_range.1 hz) he.symm).1)

theorem scaleCpp_apply (N D : ℕ) (factor mem : ℕ → ℝ) (idx i : ℕ) (hd : idx < D) (hi : i < N) :
    scaleCpp N D factor mem (idx * N + i) =
      mem (idx * N + i) * Real.exp (-(1 / 2) * factor i * factor i) := by
  unfold scaleCpp
  refine foldl_update_at _ _ _ (fun x => x * Real.exp (-(1 / 2) * factor i * factor i)) i
    (List.mem_range.2 hi) List.nodup_range ?_ ?_ mem
  · intro mem
    refine foldl_update_at _ _ _ (fun x => x * Real.exp (-(1 / 2) * factor i * factor i)) idx
      (List.mem_range.2 hd) List.nodup_range ?_ ?_ mem
    · intro mem; exact Function.update_self ..
    · intro mem y hy hne
      apply Function.update_of_ne
      intro he
      exact hne (addr_inj hi hi he).1.symm
  · intro mem y hy hne
    apply foldl_update_of_ne
    intro mem z hz
    apply Function.update_of_ne
    intro he
    exact hne (addr_inj hi (List.mem_range.1 hy) he).2.symm

theorem contractCpp_eq (N D : ℕ) (pdm mem : ℕ → ℝ) (pq : ℕ) :
    contractCpp N D pdm mem pq = ∑ idx ∈ Finset.range D, pdm idx * mem (idx * N + pq) := by
  unfold contractCpp
  induction D with
  | zero => rfl
  | succ D ih => rw [List.range_succ, List.foldl_append, ih, Finset.sum_range_succ]; rfl

theorem valCpp_eq (f : ℝ) (m n : ℕ) : valCpp f m n = dispVal f m n := by
  unfold valCpp dispVal
  rw [pow_two]

/-- **C151**: the vector of `pack_symmetric` is the packed array of the Python function. -/
theorem pack_eq (r : ℕ → ℕ → ℝ) (dim : ℕ) : packSymmetricCpp r dim = packSymmetric r dim := by
  have hrow : ∀ (k : ℕ) (l : List ℝ) (g : ℕ → ℝ),
      (List.range k).foldl (fun p j => p ++ [g j]) l = l ++ (List.range k).map g := by
    intro k l g
    induction k with
    | zero => simp
    | succ k ih => rw [List.range_succ, List.foldl_append, ih]; simp
  induction dim with
  | zero => rfl
  | succ n ih =>
    rw [packSymmetric_succ, ← ih]
    unfold packSymmetricCpp
    rw [List.range_succ, List.foldl_append, List.foldl_cons, List.foldl_nil, hrow, ← List.range_succ]

/-- **C151**: every element of the displacement matrix is defined by the loops (whatever the
memory held before) and is the element of the Python array, with the Gaussian factor. -/
theorem disp_mat_eq (mem0 : ℕ → ℝ) (nb : ℕ → ℕ) (imode nao : ℕ) (freq vsq eta pdm : ℕ → ℝ)
    (shift : ℝ) (m n p q : ℕ) (hm : m < nb imode) (hn : n ≤ m) (hp : p < nao) (hq : q < nao) :
    let A := Real.exp (vsq imode) / freq imode *
      (eta (imode * nao + p) - eta (imode * nao + q) + shift)
    (displacementCpp mem0 nb imode nao freq vsq eta pdm shift).1
        ((m * (m + 1) / 2 + n) * (nao * nao) + (p * nao + q)) =
      ((dispMat (nb imode) A).map (· * gfact true A)).getD (m * (m + 1) / 2 + n) 0 := by
  intro A
  have hpq : p * nao + q < nao * nao := by
    calc p * nao + q < p * nao + nao := by omega
      _ = (p + 1) * nao := by ring
      _ ≤ nao * nao := Nat.mul_le_mul_right _ hp
  have hpk := packedIndex_of_le m n hn
  have hA : factorCpp nao imode freq vsq eta shift (p * nao + q) = A := by
    unfold factorCpp
    rw [show (p * nao + q) / nao = p by
        rw [mul_comm, Nat.mul_add_div (by omega), Nat.div_eq_of_lt hq]; omega,
      show (p * nao + q) % nao = q by rw [mul_comm, Nat.mul_add_mod, Nat.mod_eq_of_lt hq]]
  have hlt : packedIndex m n < nb imode * (nb imode + 1) / 2 :=
    (packed_index_bijection (nb imode)).2.1 m n hm (by omega)
  unfold displacementCpp
  dsimp only
  rw [← hpk, scaleCpp_apply _ _ _ _ _ _ hlt hpq, ← packedIndexCpp_eq,
    fillCpp_apply _ _ _ _ _ _ _ hm hn hpq, hA, valCpp_eq, packedIndexCpp_eq]
  have : dispMat (nb imode) A = packSymmetric (dispVal A) (nb imode) := by
    unfold dispMat; exact fill_packed _ _
  rw [this, List.getD_eq_getElem?_getD, List.getElem?_map, (pack_entries _ _).2 m n hn hm]
  simp only [Option.map_some, Option.getD_some, gfact, if_true]
  congr 2
  ring

/-- **C151** (sum over the packed positions): what the contraction computes from the memory
of the density matrix. -/
theorem exp_val_eq (mem0 : ℕ → ℝ) (nb : ℕ → ℕ) (imode nao : ℕ) (freq vsq eta pdm : ℕ → ℝ)
    (shift : ℝ) (p q : ℕ) (hp : p < nao) (hq : q < nao) :
    let A := Real.exp (vsq imode) / freq imode *
      (eta (imode * nao + p) - eta (imode * nao + q) + shift)
    (displacementCpp mem0 nb imode nao freq vsq eta pdm shift).2 (p * nao + q) =
      ∑ m ∈ Finset.range (nb imode), ∑ n ∈ Finset.range (m + 1),
        pdm (m * (m + 1) / 2 + n) * dispVal A m n * Real.exp (-(1 / 2) * A ^ 2) := by
  intro A
  have hd := fun m n hm hn => disp_mat_eq mem0 nb imode nao freq vsq eta pdm shift m n p q hm hn hp hq
  have h2 : (displacementCpp mem0 nb imode nao freq vsq eta pdm shift).2 (p * nao + q) =
      ∑ idx ∈ Finset.range (nb imode * (nb imode + 1) / 2), pdm idx *
        (displacementCpp mem0 nb imode nao freq vsq eta pdm shift).1 (idx * (nao * nao) + (p * nao + q)) := by
    unfold displacementCpp; dsimp only; rw [contractCpp_eq]
  rw [h2]
  have hsum : ∀ (g : ℕ → ℝ) (M : ℕ), ∑ idx ∈ Finset.range (M * (M + 1) / 2), g idx =
      ∑ m ∈ Finset.range M, ∑ n ∈ Finset.range (m + 1), g (m * (m + 1) / 2 + n) := by
    intro g M
    induction M with
    | zero => simp
    | succ M ih => rw [tri_succ, Finset.sum_range_add, ih,
        Finset.sum_range_succ (fun m => ∑ n ∈ Finset.range (m + 1), g (m * (m + 1) / 2 + n))]
  rw [hsum]
  apply Finset.sum_congr rfl
  intro m hm
  apply Finset.sum_congr rfl
  intro n hn
  rw [Finset.mem_range] at hm hn
  rw [hd m n hm (by omega)]
  have : dispMat (nb imode) A = packSymmetric (dispVal A) (nb imode) := by
    unfold dispMat; exact fill_packed _ _
  rw [this, List.getD_eq_getElem?_getD, List.getElem?_map, ← packedIndex_of_le m n (by omega),
    (pack_entries _ _).2 m n (by omega) hm]
  simp only [Option.map_some, Option.getD_some, gfact, if_true]
  ring

/-- **C151** (holds for a packed density matrix): if the memory passed holds the packed
density matrix, the result is the one of the Python function `displacement_matrix` applied to
the matrix itself. -/
theorem exp_val_partial (mem0 : ℕ → ℝ) (nb : ℕ → ℕ) (imode nao : ℕ) (freq vsq eta pdm : ℕ → ℝ)
    (shift : ℝ) (ρ : ℕ → ℕ → ℝ)
    (hpdm : ∀ m n, n ≤ m → m < nb imode → pdm (m * (m + 1) / 2 + n) = ρ m n)
    (p q : ℕ) (hp : p < nao) (hq : q < nao) :
    (displacementCpp mem0 nb imode nao freq vsq eta pdm shift).2 (p * nao + q) =
      displacementMatrix (nb imode) (Real.exp (vsq imode) / freq imode *
        (eta (imode * nao + p) - eta (imode * nao + q) + shift)) ρ true := by
  rw [exp_val_eq _ _ _ _ _ _ _ _ _ _ _ hp hq]
  generalize Real.exp (vsq imode) / freq imode *
        (eta (imode * nao + p) - eta (imode * nao + q) + shift) = A
  rw [displacementMatrix, dispMat, fill_packed, List.zipWith_map_right]
  have : (fun a b => a * (b * gfact true A) : ℝ → ℝ → ℝ) = fun a b => (a * b) * gfact true A := by
    funext a b; ring
  rw [this, ← List.map_zipWith (f := (· * gfact true A)), List.sum_map_mul_right, List.map_id'']
  · rw [packed_sum, ← Finset.sum_add_distrib, Finset.sum_mul]
    apply Finset.sum_congr rfl
    intro m hm
    rw [Finset.mem_range] at hm
    rw [Finset.sum_range_succ, add_mul, Finset.sum_mul, hpdm m m le_rfl hm]
    simp only [gfact, if_true]
    congr 1
    apply Finset.sum_congr rfl
    intro n hn
    rw [Finset.mem_range] at hn
    rw [hpdm m n hn.le hm]
  · intro x; rfl

/-- **C151** (fails for the matrix the Python function takes): the memory of a square matrix
is not its packed form.  For every mode with at least two states and the density matrix of the
highest state, given as the square matrix of the Python function, the compiled function
returns zero everywhere, whereas on the diagonal (without shift) the value is one. -/
theorem exp_val_fails (mem0 : ℕ → ℝ) (nb : ℕ → ℕ) (imode nao : ℕ) (freq vsq eta : ℕ → ℝ)
    (hM : 2 ≤ nb imode) :
    let M := nb imode
    let ρ : ℕ → ℕ → ℝ := fun i j => if i = M - 1 ∧ j = M - 1 then 1 else 0
    let flat : ℕ → ℝ := fun k => ρ (k / M) (k % M)
    (∀ shift p q, p < nao → q < nao →
      (displacementCpp mem0 nb imode nao freq vsq eta flat shift).2 (p * nao + q) = 0) ∧
    ∀ p, displacementMatrix M (Real.exp (vsq imode) / freq imode *
        (eta (imode * nao + p) - eta (imode * nao + p) + 0)) ρ true = 1 := by
  intro M ρ flat
  constructor
  · intro shift p q hp hq
    rw [exp_val_eq _ _ _ _ _ _ _ _ _ _ _ hp hq]
    apply Finset.sum_eq_zero
    intro m hm
    apply Finset.sum_eq_zero
    intro n hn
    rw [Finset.mem_range] at hm hn
    have hz : flat (m * (m + 1) / 2 + n) = 0 := by
      have hlt : packedIndex m n < M * (M + 1) / 2 :=
        (packed_index_bijection M).2.1 m n hm (by show n < nb imode; omega)
      rw [packedIndex_of_le m n (by omega)] at hlt
      show ρ _ _ = 0
      apply if_neg
      rintro ⟨h1, h2⟩
      have h3 := Nat.div_add_mod (m * (m + 1) / 2 + n) M
      rw [h1, h2] at h3
      obtain ⟨k, hk⟩ : ∃ k, M = k + 2 := ⟨M - 2, by show nb imode = nb imode - 2 + 2; omega⟩
      rw [hk] at h3 hlt
      have h5 : (k + 2) * (k + 2 + 1) / 2 * 2 ≤ (k + 2) * (k + 2 + 1) := Nat.div_mul_le_self _ _
      have h6 : k + 2 - 1 = k + 1 := rfl
      rw [h6] at h3
      nlinarith
    rw [hz]; ring
  · intro p
    rw [show Real.exp (vsq imode) / freq imode *
        (eta (imode * nao + p) - eta (imode * nao + p) + 0) = 0 by ring, packed_eq_direct]
    unfold displacementExpVal
    have h1 : ((trilStrict M).map fun p => 2 * ρ p.1 p.2 * Real.sqrt ((p.2.factorial : ℝ) / p.1.factorial) *
        (-0) ^ (p.1 - p.2) * laguerre p.2 (p.1 - p.2) (0 ^ 2)).sum = 0 := by
      apply List.sum_eq_zero
      intro x hx
      obtain ⟨⟨a, b⟩, hab, rfl⟩ := List.mem_map.1 hx
      simp only [trilStrict, List.mem_flatMap, List.mem_range, List.mem_map, Prod.mk.injEq] at hab
      obtain ⟨m, hm, k, hk, rfl, rfl⟩ := hab
      dsimp only
      rw [show ρ m k = 0 from if_neg (by rintro ⟨h, h'⟩; omega)]
      ring
    rw [h1, range_map_sum, Finset.sum_eq_single (M - 1)]
    · rw [show ρ (M - 1) (M - 1) = 1 from if_pos ⟨rfl, rfl⟩]
      have : laguerre (M - 1) 0 (0 ^ 2) = 1 := by
        unfold laguerre
        rw [Finset.sum_eq_single 0]
        · simp
        · intro b _ hb
          rw [show (0 : ℝ) ^ 2 = 0 by norm_num, zero_pow hb, mul_zero]
        · simp
      rw [this]
      simp [gfact]
    · intro b _ hb
      rw [show ρ b b = 0 from if_neg (by rintro ⟨h, _⟩; exact hb h), zero_mul]
    · intro h
      exact absurd (Finset.mem_range.2 (show nb imode - 1 < nb imode by omega)) h

/-- One state: packed and square density matrix are the same single number, so the compiled
function is right for either. -/
example (mem0 : ℕ → ℝ) (eta : ℕ → ℝ) (r : ℝ) :
    (displacementCpp mem0 (fun _ => 1) 0 1 (fun _ => 1) (fun _ => 0) eta (fun _ => r) 0).2 (0 * 1 + 0) =
      displacementMatrix 1 (Real.exp 0 / 1 * (eta (0 * 1 + 0) - eta (0 * 1 + 0) + 0)) (fun _ _ => r) true :=
  exp_val_partial mem0 (fun _ => 1) 0 1 (fun _ => 1) (fun _ => 0) eta (fun _ => r) 0 (fun _ _ => r)
    (fun _ _ _ _ => rfl) 0 0 (by norm_num) (by norm_num)

/-- Two states: the square matrix `diag(0, 1)` has memory `0, 0, 0, 1`, of which the first
three numbers are read. -/
example (mem0 eta : ℕ → ℝ) :
    (displacementCpp mem0 (fun _ => 2) 0 3 (fun _ => 1) (fun _ => 0) eta
      (fun k => if k / 2 = 1 ∧ k % 2 = 1 then 1 else 0) 0).2 (1 * 3 + 1) = 0 :=
  (exp_val_fails mem0 (fun _ => 2) 0 3 (fun _ => 1) (fun _ => 0) eta le_rfl).1 0 1 1
    (by norm_num) (by norm_num)

end OpenMS.DispCpp
