/-
C121: the singles and doubles residuals of the QED-CCSD code are the textbook equations of
the Hamiltonian transformed with the singles.
-/
import Verif.Lemmas.QedccCheckDress
import Verif.Lemmas.QedccExample
import Verif.Props.QedccT

set_option linter.unusedSimpArgs false

namespace OpenMS.Qedcc

open Einsum

variable {R O V X : Type*} [CommRing R] [Algebra ℚ R] [Fintype O] [Fintype V] [Fintype X]

/-- Fock matrix in the field of the modes: `F + ∑_I S1_I g_I`. -/
def Inputs.eff (t : Inputs R O V X) (p q : O ⊕ V) : R := t.F p q + ∑ m, t.g m p q * t.S1 m

/-- Singles equation of coupled cluster doubles with modes. -/
def singlesText (t : Inputs R O V X) (a : V) (i : O) : R :=
  t.eff (.inr a) (.inl i)
  + ∑ c, ∑ k, t.eff (.inl k) (.inr c) * t.T2 a c i k
  + algebraMap ℚ R (1 / 2) * ∑ c, ∑ d, ∑ k, t.I (.inr a) (.inl k) (.inr c) (.inr d) * t.T2 c d i k
  - algebraMap ℚ R (1 / 2) * ∑ c, ∑ k, ∑ l, t.I (.inl k) (.inl l) (.inl i) (.inr c) * t.T2 a c k l
  + ∑ m, t.G m * t.U11 m a i
  + ∑ m, ∑ c, t.g m (.inr a) (.inr c) * t.U11 m c i
  - ∑ m, ∑ k, t.g m (.inl k) (.inl i) * t.U11 m a k
  + ∑ m, ∑ c, ∑ k, t.g m (.inl k) (.inr c) * t.U21 m a c i k

/-- Part of the doubles equation that is antisymmetrised in the virtual orbitals. -/
def partV (t : Inputs R O V X) (a b : V) (i j : O) : R :=
  ∑ c, t.eff (.inr b) (.inr c) * t.T2 a c i j
  - algebraMap ℚ R (1 / 2) * ∑ c, ∑ d, ∑ k, ∑ l,
      t.I (.inl k) (.inl l) (.inr c) (.inr d) * (t.T2 a c i j * t.T2 b d k l)
  + ∑ m, ∑ c, t.g m (.inr b) (.inr c) * t.U21 m a c i j
  - ∑ m, ∑ k, ∑ c, t.g m (.inl k) (.inr c) * (t.U11 m a k * t.T2 c b i j)

/-- Part of the doubles equation that is antisymmetrised in the occupied orbitals. -/
def partO (t : Inputs R O V X) (a b : V) (i j : O) : R :=
  -∑ k, t.eff (.inl k) (.inl j) * t.T2 a b i k
  + ∑ c, ∑ k, ∑ d, ∑ l, t.I (.inl k) (.inl l) (.inr c) (.inr d) * (t.T2 a c i k * t.T2 b d j l)
  - algebraMap ℚ R (1 / 2) * ∑ k, ∑ c, ∑ d, ∑ l,
      t.I (.inl k) (.inl l) (.inr c) (.inr d) * (t.T2 a b i k * t.T2 c d j l)
  - ∑ m, ∑ k, t.g m (.inl k) (.inl j) * t.U21 m a b i k
  - ∑ m, ∑ c, ∑ k, t.g m (.inl k) (.inr c) * (t.U11 m c i * t.T2 a b k j)

/-- Part of the doubles equation that is antisymmetrised in both. -/
def partB (t : Inputs R O V X) (a b : V) (i j : O) : R :=
  ∑ c, ∑ k, t.I (.inl k) (.inr b) (.inr c) (.inl j) * t.T2 a c i k
  + ∑ m, t.g m (.inr a) (.inl i) * t.U11 m b j
  + ∑ c, ∑ k, ∑ m, t.g m (.inl k) (.inr c) * (t.T2 a c i k * t.U11 m b j)

/-- Doubles equation of coupled cluster doubles with modes. -/
def doublesText (t : Inputs R O V X) (a b : V) (i j : O) : R :=
  t.I (.inr a) (.inr b) (.inl i) (.inl j)
  + algebraMap ℚ R (1 / 2) * ∑ c, ∑ d, t.I (.inr a) (.inr b) (.inr c) (.inr d) * t.T2 c d i j
  + algebraMap ℚ R (1 / 2) * ∑ k, ∑ l, t.I (.inl k) (.inl l) (.inl i) (.inl j) * t.T2 a b k l
  + algebraMap ℚ R (1 / 4) * ∑ c, ∑ d, ∑ k, ∑ l,
      t.I (.inl k) (.inl l) (.inr c) (.inr d) * (t.T2 c d i j * t.T2 a b k l)
  + ∑ m, t.G m * t.U21 m a b i j
  + (partV t a b i j - partV t b a i j)
  + (partO t a b i j - partO t a b j i)
  + (partB t a b i j - partB t b a i j - partB t a b j i + partB t b a j i)

theorem eff_frame {r : Nat} (h : r < 200) (t : Inputs R O V X) : run effP t.ten r = t.ten r :=
  run_other (by simp [effP, Einsum.set, effo, effv, effx]; omega) _

theorem eff_o (t : Inputs R O V X) (k i : O) :
    run effP t.ten 200 [.o k, .o i] = t.eff (.inl k) (.inl i) := by
  simp [effP, run, Def.run, Einsum.set, effo, effv, effx, evalAt, Def.terms, qedcc_eval, Inputs.eff]

theorem eff_v (t : Inputs R O V X) (a c : V) :
    run effP t.ten 201 [.v a, .v c] = t.eff (.inr a) (.inr c) := by
  simp [effP, run, Def.run, Einsum.set, effo, effv, effx, evalAt, Def.terms, qedcc_eval, Inputs.eff]

theorem eff_x (t : Inputs R O V X) (k : O) (c : V) :
    run effP t.ten 202 [.o k, .v c] = t.eff (.inl k) (.inr c) := by
  simp [effP, run, Def.run, Einsum.set, effo, effv, effx, evalAt, Def.terms, qedcc_eval, Inputs.eff]

theorem textT1_eval (t : Inputs R O V X) (a : V) (i : O) :
    result textT1 t T1 [.v a, .o i] = singlesText t a i := by
  unfold result textT1
  rw [run_append]
  have h0 := eff_frame (r := 0) (by decide) t
  have h1 := eff_frame (r := 1) (by decide) t
  have h2 := eff_frame (r := 2) (by decide) t
  have h6 := eff_frame (r := 6) (by decide) t
  have h7 := eff_frame (r := 7) (by decide) t
  have h9 := eff_frame (r := 9) (by decide) t
  have h11 := eff_frame (r := 11) (by decide) t
  have h13 := eff_frame (r := 13) (by decide) t
  have ho := eff_o t
  have hv := eff_v t
  have hx := eff_x t
  generalize run effP t.ten = s at *
  simp [run, Def.run, Einsum.set, evalAt, Def.terms, qedcc_eval, effx, effo, effv, h0, h1, h2, h6, h7, h9, h11, h13, ho, hv, hx]
  have hn : algebraMap ℚ R (-1 / 2) = -algebraMap ℚ R 2⁻¹ := by rw [← map_neg]; norm_num
  rw [hn, singlesText, one_div, Inputs.eff]
  ring

theorem textT2_eval (t : Inputs R O V X) (a b : V) (i j : O) :
    result textT2 t T2 [.v a, .v b, .o i, .o j] = doublesText t a b i j := by
  unfold result textT2
  rw [run_append]
  have h0 := eff_frame (r := 0) (by decide) t
  have h1 := eff_frame (r := 1) (by decide) t
  have h2 := eff_frame (r := 2) (by decide) t
  have h6 := eff_frame (r := 6) (by decide) t
  have h7 := eff_frame (r := 7) (by decide) t
  have h9 := eff_frame (r := 9) (by decide) t
  have h11 := eff_frame (r := 11) (by decide) t
  have h13 := eff_frame (r := 13) (by decide) t
  have ho := eff_o t
  have hv := eff_v t
  have hx := eff_x t
  generalize run effP t.ten = s at *
  simp [run, Def.run, Einsum.set, evalAt, Def.terms, qedcc_eval, effx, effo, effv, h0, h1, h2, h6, h7, h9, h11, h13, ho, hv, hx]
  have hn : algebraMap ℚ R (-1 / 2) = -algebraMap ℚ R 2⁻¹ := by rw [← map_neg]; norm_num
  have hq : algebraMap ℚ R (2 ^ 2)⁻¹ = algebraMap ℚ R (1 / 4) := by norm_num
  simp only [hn, hq, doublesText, partV, partO, partB, one_div]
  ring

/-! The transformed inputs are the Hamiltonian transformed with the matrix `1 + T1`. -/

section

variable {R O V X : Type*} [CommRing R] [Fintype O] [Fintype V]

/-- The mean field of the modes is the one of the transformed couplings. -/
theorem dress_G {t : Inputs R O V X} {c : X → R}
    (hG : ∀ m, t.G m = c m + ∑ k, t.g m (.inl k) (.inl k)) (m : X) :
    t.dress.G m = c m + ∑ k, t.dress.g m (.inl k) (.inl k) := by
  simp [Inputs.dress, dressL, dressR, hG, Finset.sum_add_distrib, add_assoc]

variable [DecidableEq O] [DecidableEq V]

/-- The matrix `1 + T1`. -/
def expT1 (T1 : V → O → R) : Matrix (O ⊕ V) (O ⊕ V) R := Matrix.fromBlocks 1 0 (Matrix.of T1) 1

theorem expT1_inv (T1 : V → O → R) : expT1 (-T1) * expT1 T1 = 1 := by
  simp [expT1, Matrix.fromBlocks_multiply, ← Matrix.fromBlocks_one]

theorem dressL_eq (T1 : V → O → R) (f : O ⊕ V → R) (p : O ⊕ V) :
    dressL T1 f p = ∑ q, expT1 (-T1) p q * f q := by
  cases p <;> simp [dressL, expT1, Matrix.one_apply, sub_eq_neg_add, add_comm]

theorem dressR_eq (T1 : V → O → R) (f : O ⊕ V → R) (p : O ⊕ V) :
    dressR T1 f p = ∑ q, f q * expT1 T1 q p := by
  cases p <;> simp [dressR, expT1, Matrix.one_apply, mul_comm]

/-- The couplings are transformed as matrices. -/
theorem dress_g (t : Inputs R O V X) (m : X) :
    Matrix.of (t.dress.g m) = expT1 (-t.T1) * Matrix.of (t.g m) * expT1 t.T1 := by
  ext p q
  simp only [Inputs.dress, dressL_eq, dressR_eq, Matrix.mul_apply, Matrix.of_apply, Finset.mul_sum,
    Finset.sum_mul]
  rw [Finset.sum_comm]
  simp only [mul_assoc]

/-- The integrals are transformed in every index. -/
theorem dress_I (t : Inputs R O V X) (p q r s : O ⊕ V) :
    t.dress.I p q r s = ∑ p', ∑ q', ∑ r', ∑ s', expT1 (-t.T1) p p' * (expT1 (-t.T1) q q'
      * (t.I p' q' r' s' * expT1 t.T1 s' s * expT1 t.T1 r' r)) := by
  simp only [Inputs.dress, dressL_eq, dressR_eq, Finset.mul_sum, Finset.sum_mul]

/-- The Fock matrix is the one of the transformed integrals. -/
theorem dress_F {t : Inputs R O V X} {h : Matrix (O ⊕ V) (O ⊕ V) R}
    (hF : ∀ p q, t.F p q = h p q + ∑ k, t.I p (.inl k) q (.inl k)) (p q : O ⊕ V) :
    t.dress.F p q = (expT1 (-t.T1) * h * expT1 t.T1) p q + ∑ k, t.dress.I p (.inl k) q (.inl k) := by
  have e : ∀ k, t.dress.I p (.inl k) q (.inl k) = dressL t.T1 (fun p => dressR t.T1 (fun q =>
      t.I p (.inl k) q (.inl k) + ∑ c, t.T1 c k * t.I p (.inl k) q (.inr c)) q) p := fun k => rfl
  simp only [e]
  simp only [Inputs.dress, hF, dressL_eq, dressR_eq, Matrix.mul_apply, Finset.sum_mul]
  rw [Finset.sum_comm (s := Finset.univ (α := O ⊕ V)) (t := Finset.univ (α := O ⊕ V)) (f := fun x y => expT1 (-t.T1) p y * h y x * expT1 t.T1 x q)]
  rw [Finset.sum_comm (s := Finset.univ (α := O))]
  rw [← Finset.sum_add_distrib]
  refine Finset.sum_congr rfl fun x _ => ?_
  rw [← Finset.mul_sum, Finset.sum_comm (s := Finset.univ (α := O))]
  simp only [mul_assoc]
  rw [← Finset.mul_sum, ← mul_add, ← Finset.sum_add_distrib]
  refine congrArg _ (Finset.sum_congr rfl fun y _ => ?_)
  simp only [add_mul, Finset.sum_add_distrib, Finset.sum_mul, mul_assoc]
  ring

end

/-- The optimised singles residual is the singles equation of the transformed inputs. -/
theorem opt_T1_text {n1 n2 : Nat} (h1 : 0 < n1) (h2 : 0 < n2) {u2 : Bool} {t : Inputs R O V X}
    (hs : t.Symmetric) (ht : t.Truncated n1 n2 u2) (a : V) (i : O) :
    Opt.resT1 n1 n2 u2 t a i = singlesText t.dress a i := by
  obtain ⟨cs, hc⟩ := check_dress_T1 u2
  have h := check_sound t.ten (ten_respects hs ht.two (fun h => by simp at h)) hc
    (bind (letters% "ai") [.v a, .o i])
  rw [← blockOk_sound (dress_blocks t) blkT1_eq (by intro n hn; fin_cases hn <;> rfl),
    read_result, read_result] at h
  rw [Opt.resT1, optT_two h1 h2, ← textT1_eval]
  exact h

/-- The singles residual is the same up to `∑_I G_I U11_I`, which it leaves out. -/
theorem ref_T1_text {n1 n2 : Nat} (h1 : 0 < n1) (h2 : 0 < n2) {u2 : Bool} {t : Inputs R O V X}
    (hs : t.Symmetric) (ht : t.Truncated n1 n2 u2) (a : V) (i : O) :
    Ref.resT1 n1 n2 u2 t a i + ∑ m, t.G m * t.U11 m a i = singlesText t.dress a i := by
  rw [← opt_T1_eq h1 h2 hs ht, opt_T1_text h1 h2 hs ht]

/-- The doubles residual is the doubles equation of the transformed inputs up to
`∑_I G_I U21_I`, which it leaves out. -/
theorem ref_T2_text {n1 n2 : Nat} {u2 : Bool} {t : Inputs R O V X}
    (hs : t.Symmetric) (ht : t.Truncated n1 n2 u2) (a b : V) (i j : O) :
    Ref.resT2 n1 n2 u2 t a b i j + ∑ m, t.G m * t.U21 m a b i j = doublesText t.dress a b i j := by
  obtain ⟨cs, hc⟩ := check_dress_T2 u2
  have h := check_sound t.ten (ten_respects hs ht.two (fun h => by simp at h)) hc
    (bind (letters% "abij") [.v a, .v b, .o i, .o j])
  rw [← blockOk_sound (dress_blocks t) blkT2_eq (by intro n hn; fin_cases hn <;> rfl),
    evalTerms_append, read_result, read_result] at h
  rw [Ref.resT2, refT2_two, ← textT2_eval]
  refine Eq.trans ?_ h
  refine congrArg _ ?_
  have hG : run (refT2 2 2 u2) t.ten 13 = t.ten 13 := run_frame (by cases u2 <;> rfl) _
  have hU : run (refT2 2 2 u2) t.ten 11 = t.ten 11 := run_frame (by cases u2 <;> rfl) _
  simp [qedcc_eval, hG, hU]

/-- The same for the optimised doubles residual. -/
theorem opt_T2_text {n1 n2 : Nat} (h1 : 0 < n1) (h2 : 0 < n2) {u2 : Bool} {t : Inputs R O V X}
    (hs : t.Symmetric) (ht : t.Truncated n1 n2 u2) (a b : V) (i j : O) :
    Opt.resT2 n1 n2 u2 t a b i j + ∑ m, t.G m * t.U21 m a b i j = doublesText t.dress a b i j := by
  rw [opt_T2_eq h1 h2 hs ht, ref_T2_text hs ht]

set_option maxRecDepth 100000 in
/-- The example has singles, so that the transformation matters. -/
example : singlesText exInputs.dress 0 1 = -144 ∧ singlesText exInputs 0 1 ≠ -144
    ∧ doublesText exInputs.dress 0 1 0 1 = -336 ∧ doublesText exInputs 0 1 0 1 ≠ -336 := by
  refine ⟨?_, by decide +kernel, ?_, by decide +kernel⟩
  · rw [← ref_T1_text (by decide) (by decide) exInputs_symmetric exInputs_truncated]
    have h : Ref.resT1 2 2 true exInputs 0 1 = -144 := by decide +kernel
    simp [h, exInputs_G]
  · rw [← ref_T2_text exInputs_symmetric exInputs_truncated]
    have h : Ref.resT2 2 2 true exInputs 0 1 0 1 = -336 := by decide +kernel
    simp [h, exInputs_G]

end OpenMS.Qedcc
