import Verif.Model.EstimatorElec
import Verif.Props.Green

/-!
# C141: further electronic estimators
-/

namespace OpenMS.Energy

open Matrix OpenMS.Green
open scoped BigOperators

/-- The energy by Wick's theorem for two components. -/
noncomputable def wickEnergy {n : Type*} [Fintype n] (h : Fin 2 → n → n → ℂ) (eri : n → n → n → n → ℂ)
    (G : Fin 2 → n → n → ℂ) : ℂ :=
  (∑ a, ∑ p, ∑ q, h a p q * G a p q) +
    1 / 2 * (∑ a, ∑ b, ∑ p, ∑ r, ∑ q, ∑ s, eri p r q s * G a p r * G b q s) -
    1 / 2 * (∑ a, ∑ p, ∑ r, ∑ q, ∑ s, eri p r q s * G a p s * G a q r)

section energy
variable {n : Type*} [Fintype n]

/-- C141: with two components and the default factor `local_eng_elec` is the energy minus half of its one electron part. -/
theorem local_eng_error (h : Fin 2 → n → n → ℂ) (eri : n → n → n → n → ℂ) (G : Fin 2 → n → n → ℂ) :
    localEngElec h eri G (1 / 2) = wickEnergy h eri G - 1 / 2 * ∑ a, ∑ p, ∑ q, h a p q * G a p q := by
  have h1 : ∑ a, ∑ p, ∑ q, G a p q * h a p q = ∑ a, ∑ p, ∑ q, h a p q * G a p q := by
    simp only [mul_comm]
  have h2 : ∑ a, ∑ q, ∑ s, (2 * (∑ b, ∑ p, ∑ r, eri p r q s * G b p r) * (1 / 2)) * G a q s =
      ∑ a, ∑ b, ∑ p, ∑ r, ∑ q, ∑ s, eri p r q s * G a p r * G b q s := by
    have e : ∀ b : Fin 2, ∑ q, ∑ s, (2 * (∑ a, ∑ p, ∑ r, eri p r q s * G a p r) * (1 / 2)) * G b q s =
        ∑ a, ∑ p, ∑ r, ∑ q, ∑ s, eri p r q s * G a p r * G b q s := by
      intro b
      calc ∑ q, ∑ s, (2 * (∑ a, ∑ p, ∑ r, eri p r q s * G a p r) * (1 / 2)) * G b q s
          = ∑ y : n × n, ∑ x : Fin 2 × n × n, (eri x.2.1 x.2.2 y.1 y.2 * G x.1 x.2.1 x.2.2 * G b y.1 y.2) := by
            simp only [Fintype.sum_prod_type, ← Finset.sum_mul]
            refine Finset.sum_congr rfl fun q _ => ?_
            exact Finset.sum_congr rfl fun s _ => by ring
        _ = ∑ x : Fin 2 × n × n, ∑ y : n × n, (eri x.2.1 x.2.2 y.1 y.2 * G x.1 x.2.1 x.2.2 * G b y.1 y.2) :=
            Finset.sum_comm
        _ = _ := by simp only [Fintype.sum_prod_type]
    rw [Finset.sum_congr rfl fun b _ => e b, Finset.sum_comm]
  have h3 : ∑ a, ∑ q, ∑ s, (∑ p, ∑ r, eri p s q r * G a p r) * G a q s =
      ∑ a, ∑ p, ∑ r, ∑ q, ∑ s, eri p r q s * G a p s * G a q r := by
    refine Finset.sum_congr rfl fun a _ => ?_
    calc ∑ q, ∑ s, (∑ p, ∑ r, eri p s q r * G a p r) * G a q s
        = ∑ q, ∑ s, ∑ p, ∑ r, eri p s q r * G a p r * G a q s := by simp only [Finset.sum_mul]
      _ = ∑ q, ∑ p, ∑ s, ∑ r, eri p s q r * G a p r * G a q s :=
          Finset.sum_congr rfl fun q _ => Finset.sum_comm
      _ = ∑ p, ∑ q, ∑ s, ∑ r, eri p s q r * G a p r * G a q s := Finset.sum_comm
      _ = ∑ p, ∑ s, ∑ q, ∑ r, eri p s q r * G a p r * G a q s :=
          Finset.sum_congr rfl fun p _ => Finset.sum_comm
  unfold localEngElec wickEnergy
  simp only [h1, h2, h3]
  ring

/-- C141: so it is the energy exactly when the one electron part vanishes. -/
theorem local_eng_iff (h : Fin 2 → n → n → ℂ) (eri : n → n → n → n → ℂ) (G : Fin 2 → n → n → ℂ) :
    localEngElec h eri G (1 / 2) = wickEnergy h eri G ↔ ∑ a, ∑ p, ∑ q, h a p q * G a p q = 0 := by
  rw [local_eng_error, sub_eq_self, mul_eq_zero]
  norm_num

/-- C141 fails: for one orbital with one alpha electron and `h = 1` the energy is 1, the estimator gives 1/2. -/
theorem local_eng_fails : ∃ (h G : Fin 2 → Unit → Unit → ℂ),
    wickEnergy h (fun _ _ _ _ => 0) G = 1 ∧ localEngElec h (fun _ _ _ _ => 0) G (1 / 2) = 1 / 2 := by
  refine ⟨fun _ _ _ => 1, fun a _ _ => if a = 0 then 1 else 0, ?_, ?_⟩ <;>
    simp [wickEnergy, localEngElec]

end energy

section green
variable {p : Type*} [Fintype p]

/-- C141: for matrices with the orbitals of both spins as columns `GF_so` gives for each spin the projector of C22, with the number
of electrons as trace; without beta electrons the second one is zero. -/
theorem gfSo_spec {na nb : ℕ} (T W : Matrix p (Fin na ⊕ Fin nb) ℂ)
    (ha : ((W.submatrix id Sum.inl)ᵀ * conj (T.submatrix id (Sum.inl : Fin na → _))).det ≠ 0)
    (hb : ((W.submatrix id Sum.inr)ᵀ * conj (T.submatrix id (Sum.inr : Fin nb → _))).det ≠ 0) :
    ∃ A B Ah Bh, gfSo T W = some ((A, B), (Ah, Bh)) ∧ A * A = A ∧ B * B = B ∧ A.trace = na ∧ B.trace = nb ∧
      GF (T.submatrix id Sum.inl) (W.submatrix id Sum.inl) = some (A, Ah) ∧
      GF (T.submatrix id Sum.inr) (W.submatrix id Sum.inr) = some (B, Bh) := by
  obtain ⟨A, Ah, eA, hA1, hA2, -, -⟩ := gf_projector _ _ ha
  obtain ⟨B, Bh, eB, hB1, hB2, -, -⟩ := gf_projector _ _ hb
  rw [Fintype.card_fin] at hA2 hB2
  by_cases h0 : 0 < nb
  · refine ⟨A, B, Ah, Bh, ?_, hA1, hB1, hA2, hB2, eA, eB⟩
    simp [gfSo, eA, eB, h0]
  · have h1 : nb = 0 := by omega
    subst h1
    have hB0 : B = 0 := by
      unfold GF at eB
      rw [Option.map_eq_some_iff] at eB
      obtain ⟨m, -, e⟩ := eB
      rw [Prod.mk.injEq] at e
      rw [← e.1]
      ext x y
      simp [Matrix.mul_apply]
    have hBh : Bh = 0 := by ext x y; exact x.elim0
    subst hB0 hBh
    exact ⟨A, 0, Ah, 0, by simp [gfSo, eA], hA1, hB1, hA2, hB2, eA, eB⟩

end green

/-- C141 fails: the unrestricted trial passes the stack of the two spin components, so the orbitals are never split and the construction
raises for every number of orbitals and electrons. -/
theorem uhf_build_fails (nao nocc : ℕ) : uhfBuild nao nocc = .error "ValueError" := by
  unfold uhfBuild gfShape
  simp only [cutSecond]
  by_cases h : 2 = min nocc nao
  · simp [dotShape, ← h, bind, Except.bind, invShape]
  · simp [dotShape, h, bind, Except.bind]

section chunks
variable {p i g : Type*} [Fintype p] [Fintype i] [Fintype g]

/-- Offsets of consecutive parts. -/
def offsets {α : Type*} (d : ℕ) : List (List α) → List ℕ
  | [] => []
  | c :: cs => d :: offsets (d + c.length) cs

theorem gather_fold (cs : List (List ℂ)) (d : ℕ) (A : ℕ → ℂ) (k : ℕ) :
    ((offsets d cs).zip cs).foldl
      (fun A x k => if h : x.1 ≤ k ∧ k - x.1 < x.2.length then x.2[k - x.1]'h.2 else A k) A k =
      if h : d ≤ k ∧ k - d < cs.flatten.length then cs.flatten[k - d]'h.2 else A k := by
  induction cs generalizing d A with
  | nil => simp [offsets]
  | cons c cs ih =>
    simp only [offsets, List.zip_cons_cons, List.foldl_cons]
    rw [ih]
    simp only [List.flatten_cons, List.length_append]
    by_cases h1 : d + c.length ≤ k ∧ k - (d + c.length) < cs.flatten.length
    · rw [dif_pos h1, dif_pos ⟨by omega, by omega⟩, List.getElem_append_right (by omega)]
      congr 1
      omega
    · rw [dif_neg h1]
      by_cases h2 : d ≤ k ∧ k - d < c.length
      · rw [dif_pos h2, dif_pos ⟨h2.1, by omega⟩, List.getElem_append_left h2.2]
      · rw [dif_neg h2, dif_neg (by omega)]

/-- C141: with the offsets of consecutive parts the first process gets the exchange energies of all walkers in order, for all numbers of
processes and walkers on each; the other processes get nothing. -/
theorem exx_chunked (rl : g → Matrix p i ℂ) (chunks : List (List (Matrix p i ℂ))) :
    (∀ rank, rank ≠ 0 → exxChunked rl chunks (offsets 0 chunks) rank = none) ∧
    ∃ E, exxChunked rl chunks (offsets 0 chunks) 0 = some E ∧
      ∀ k (hk : k < chunks.flatten.length), E k = exx rl chunks.flatten[k] := by
  refine ⟨fun rank h => if_neg h, _, if_pos rfl, fun k hk => ?_⟩
  have ho : ∀ (d : ℕ) (cs : List (List (Matrix p i ℂ))), offsets d cs = offsets d (cs.map (localExx rl)) := by
    intro d cs
    induction cs generalizing d with
    | nil => rfl
    | cons c cs ih => simp [offsets, ih, localExx]
  have hf : (chunks.map (localExx rl)).flatten = chunks.flatten.map (exx rl) := by
    rw [List.map_flatten]; rfl
  unfold gatherv
  rw [ho 0 chunks, gather_fold]
  rw [dif_pos ⟨Nat.zero_le _, by rw [hf, List.length_map]; exact hk⟩]
  simp only [hf, Nat.sub_zero, List.getElem_map]

/-- Two processes, one walker on the first and two on the second. -/
example (rl : g → Matrix p i ℂ) (a b c : Matrix p i ℂ) :
    offsets 0 [[a], [b, c]] = [0, 1] ∧ ∃ E, exxChunked rl [[a], [b, c]] [0, 1] 0 = some E ∧ E 2 = exx rl c := by
  refine ⟨rfl, ?_⟩
  obtain ⟨E, h1, h2⟩ := (exx_chunked rl [[a], [b, c]]).2
  exact ⟨E, h1, h2 2 (by simp)⟩

end chunks

end OpenMS.Energy
