/-
C115: the residuals of the photon amplitudes are derivatives of the energy.
-/
import Verif.Lemmas.QedccCheckS
import Verif.Lemmas.QedccExample
import Verif.Lemmas.QedccEval

namespace OpenMS.Qedcc

open Einsum TrivSqZeroExt

variable {R O V X : Type*} [CommRing R] [Algebra ℚ R] [Fintype O] [Fintype V] [Fintype X]

theorem energyP_eq (t : Inputs R O V X) : result energyP t energyT [] = energy t := by
  unfold energyP energy
  rw [result_set]
  simp [qedcc_eval, add_assoc]
  norm_num

variable [DecidableEq X]

section

variable {n1 n2 : Nat} {u2 : Bool} {t : Inputs R O V X}

/-- `Sn[0]` of openms/mqed/qedcc_equations.py is the first derivative of the energy of the
displaced amplitudes, plus `ω S1`, for every mode with frequency not zero. -/
theorem ref_S1_derivative (h1 : 0 < n1) (h2 : 0 < n2) (hs : t.Symmetric)
    (ht : t.Truncated n1 n2 u2) (hg : t.G = fun _ => 0) {m : X} (hw : t.w m ≠ 0) :
    Ref.resS1 n1 n2 u2 t m = snd (energy (t.shift m)) + t.w m * t.S1 m := by
  obtain ⟨cs, hc⟩ := check_ref_S1 n1 n2 u2 h1 h2
  have h := checkTo_sound (fst_shift t m) (shift_moves t m) (ten_respects hs ht fun _ => hg) hc
    (Einsum.bind (letters% "I") [.x m]) rfl
  rw [read_result, read_result] at h
  unfold Ref.resS1
  rw [if_neg hw]
  refine h.trans ?_
  rw [List.map_nil, energyP_eq]
  simp [qedcc_eval]

/-- The same for openms/mqed/myqedcc_equations_opt.py. -/
theorem opt_S1_derivative (h1 : 0 < n1) (h2 : 0 < n2) (hs : t.Symmetric)
    (ht : t.Truncated n1 n2 u2) (hg : t.G = fun _ => 0) {m : X} (hw : t.w m ≠ 0) :
    Opt.resS1 n1 n2 u2 t m = snd (energy (t.shift m)) + t.w m * t.S1 m := by
  obtain ⟨cs, hc⟩ := check_opt_S1 n1 n2 u2 h1 h2
  have h := checkTo_sound (fst_shift t m) (shift_moves t m) (ten_respects hs ht fun _ => hg) hc
    (Einsum.bind (letters% "I") [.x m]) rfl
  rw [read_result, read_result] at h
  unfold Opt.resS1
  rw [if_neg hw]
  refine h.trans ?_
  rw [List.map_nil, energyP_eq]
  simp [qedcc_eval]

/-- `Sn[1]` is the second derivative of the energy, plus `(ω_m + ω_n) S2`. -/
theorem ref_S2_derivative (h1 : 1 < n1) (h2 : 0 < n2) (hs : t.Symmetric)
    (ht : t.Truncated n1 n2 u2) (hg : t.G = fun _ => 0) {m n : X} (hw : m = n → t.w m ≠ 0) :
    Ref.resS2 n1 n2 u2 t m n
      = snd (snd (energy ((t.shift n).shift m))) + (t.w m + t.w n) * t.S2 m n := by
  obtain ⟨cs, hc⟩ := check_ref_S2 n1 n2 u2 h1 h2
  have h := checkTo_sound2 (fst_shift t n) (fst_shift (t.shift n) m) (shift_moves (t.shift n) m)
    (shift_moves t n) (ten_respects hs ht fun _ => hg) hc
    (Einsum.bind (letters% "IJ") [.x m, .x n]) rfl rfl
  rw [read_result, read_result] at h
  unfold Ref.resS2
  have e : (letters% "IJ").map (Einsum.bind (letters% "IJ") [.x m, .x n])
      = [(.x m : Idx O V X), .x n] := rfl
  rw [e] at h
  rw [if_neg fun h => hw h.1 h.2, h]
  rw [List.map_nil, energyP_eq]
  simp [qedcc_eval]
  ring

/-- The same for openms/mqed/myqedcc_equations_opt.py. -/
theorem opt_S2_derivative (h1 : 1 < n1) (h2 : 0 < n2) (hs : t.Symmetric)
    (ht : t.Truncated n1 n2 u2) (hg : t.G = fun _ => 0) {m n : X} (hw : m = n → t.w m ≠ 0) :
    Opt.resS2 n1 n2 u2 t m n
      = snd (snd (energy ((t.shift n).shift m))) + (t.w m + t.w n) * t.S2 m n := by
  obtain ⟨cs, hc⟩ := check_opt_S2 n1 n2 u2 h1 h2
  have h := checkTo_sound2 (fst_shift t n) (fst_shift (t.shift n) m) (shift_moves (t.shift n) m)
    (shift_moves t n) (ten_respects hs ht fun _ => hg) hc
    (Einsum.bind (letters% "IJ") [.x m, .x n]) rfl rfl
  rw [read_result, read_result] at h
  unfold Opt.resS2
  have e : (letters% "IJ").map (Einsum.bind (letters% "IJ") [.x m, .x n])
      = [(.x m : Idx O V X), .x n] := rfl
  rw [e] at h
  rw [if_neg fun h => hw h.1 h.2, h]
  rw [List.map_nil, energyP_eq]
  simp [qedcc_eval]
  ring

end

/-- Both files agree on the photon residuals, for modes of any frequency. -/
theorem opt_S_eq_ref {n1 n2 : Nat} {u2 : Bool} {t : Inputs R O V X} (h1 : 0 < n1) (h2 : 0 < n2)
    (hs : t.Symmetric) (ht : t.Truncated n1 n2 u2) (hg : t.G = fun _ => 0) (m n : X) :
    Opt.resS1 n1 n2 u2 t m = Ref.resS1 n1 n2 u2 t m
      ∧ (1 < n1 → Opt.resS2 n1 n2 u2 t m n = Ref.resS2 n1 n2 u2 t m n) := by
  constructor
  · by_cases hw : t.w m = 0
    · unfold Opt.resS1 Ref.resS1
      rw [if_pos hw, if_pos hw]
    · rw [opt_S1_derivative h1 h2 hs ht hg hw, ref_S1_derivative h1 h2 hs ht hg hw]
  · intro h
    by_cases hw : m = n ∧ t.w m = 0
    · unfold Opt.resS2 Ref.resS2
      rw [if_pos hw, if_pos hw]
    · have hw' : m = n → t.w m ≠ 0 := by tauto
      rw [opt_S2_derivative h h2 hs ht hg hw', ref_S2_derivative h h2 hs ht hg hw']

theorem exInputs_w (m : Fin 2) : exInputs.w m ≠ 0 := by
  fin_cases m <;> norm_num [exInputs]

example : Opt.resS1 2 2 true exInputs 1
    = snd (energy (exInputs.shift 1)) + exInputs.w 1 * exInputs.S1 1 :=
  opt_S1_derivative (by decide) (by decide) exInputs_symmetric exInputs_truncated exInputs_G
    (exInputs_w 1)

set_option maxRecDepth 100000 in
example : Opt.resS2 2 2 true exInputs 0 1 = Ref.resS2 2 2 true exInputs 0 1
    ∧ snd (snd (energy ((exInputs.shift 1).shift 0))) = 57 :=
  ⟨(opt_S_eq_ref (by decide) (by decide) exInputs_symmetric exInputs_truncated exInputs_G 0 1).2
    (by decide), by decide +kernel⟩

end OpenMS.Qedcc
