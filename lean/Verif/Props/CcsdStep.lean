/-
C122: fixed points of the iteration of openms/mqed/ccsd.py.
-/
import Verif.Model.CcsdStep
import Verif.Props.QedccDress
import Verif.Props.QedccS
import Verif.Props.QedccU1

set_option linter.unusedSectionVars false

namespace OpenMS.Qedcc

open Einsum TrivSqZeroExt

section

variable {R O V X : Type*} [CommRing R] [Fintype O] [Fintype V] [DecidableEq O] [DecidableEq V]
  (eo : O → R) (ev : V → R) (t : Inputs R O V X)

theorem full_dress_ov (i : O) (a : V) :
    (t.full eo ev).dress.F (.inl i) (.inr a) = t.dress.F (.inl i) (.inr a) := by
  simp [Inputs.full, Inputs.dress, dressL, dressR]

theorem full_dress_oo (i j : O) : (t.full eo ev).dress.F (.inl i) (.inl j)
    = t.dress.F (.inl i) (.inl j) + if i = j then eo j else 0 := by
  simp [Inputs.full, Inputs.dress, dressL, dressR]
  ring

theorem full_dress_vv (a b : V) : (t.full eo ev).dress.F (.inr a) (.inr b)
    = t.dress.F (.inr a) (.inr b) + if a = b then ev a else 0 := by
  simp [Inputs.full, Inputs.dress, dressL, dressR]
  ring

theorem full_dress_vo (a : V) (i : O) : (t.full eo ev).dress.F (.inr a) (.inl i)
    = t.dress.F (.inr a) (.inl i) + (ev a - eo i) * t.T1 a i := by
  simp [Inputs.full, Inputs.dress, dressL, dressR, mul_add, Finset.sum_add_distrib]
  ring

variable [Algebra ℚ R] [Fintype X]

/-- The diagonal of the Fock matrix in the singles equation. -/
theorem singles_full (a : V) (i : O) : singlesText (t.full eo ev).dress a i
    = singlesText t.dress a i + (ev a - eo i) * t.T1 a i := by
  simp only [singlesText, Inputs.eff, full_dress_ov, full_dress_vo]
  simp only [Inputs.dress, Inputs.full]
  ring

/-- The diagonal of the Fock matrix in the doubles equation. -/
theorem doubles_full (h1 : ∀ a b i j, t.T2 b a i j = -t.T2 a b i j)
    (h2 : ∀ a b i j, t.T2 a b j i = -t.T2 a b i j) (a b : V) (i j : O) :
    doublesText (t.full eo ev).dress a b i j
      = doublesText t.dress a b i j + (ev a + ev b - eo i - eo j) * t.T2 a b i j := by
  have ha : ∀ (a b : V) (i j : O), ∑ c, (t.full eo ev).dress.eff (.inr b) (.inr c) * t.T2 a c i j
      = ∑ c, t.dress.eff (.inr b) (.inr c) * t.T2 a c i j + ev b * t.T2 a b i j := fun a b i j => by
    simp only [Inputs.eff, full_dress_vv]
    simp [Inputs.dress, Inputs.full, add_mul, Finset.sum_add_distrib]
    ring
  have hi : ∀ (a b : V) (i j : O), ∑ k, (t.full eo ev).dress.eff (.inl k) (.inl j) * t.T2 a b i k
      = ∑ k, t.dress.eff (.inl k) (.inl j) * t.T2 a b i k + eo j * t.T2 a b i j := fun a b i j => by
    simp only [Inputs.eff, full_dress_oo]
    simp [Inputs.dress, Inputs.full, add_mul, Finset.sum_add_distrib]
    ring
  have hT : (t.full eo ev).dress.T2 = t.T2 := rfl
  have hT' : t.dress.T2 = t.T2 := rfl
  have hI : (t.full eo ev).dress.I = t.dress.I := rfl
  have hg : (t.full eo ev).dress.g = t.dress.g := rfl
  have hG : (t.full eo ev).dress.G = t.dress.G := rfl
  have hU : (t.full eo ev).dress.U11 = t.dress.U11 := rfl
  have hU' : (t.full eo ev).dress.U21 = t.dress.U21 := rfl
  simp only [doublesText, partV, partO, partB, hT, hT', hI, hg, hG, hU, hU', ha, hi]
  linear_combination (-ev a) * h1 a b i j + eo i * h2 a b i j

end

section

variable {R O V X : Type*} [CommRing R] [DecidableEq X]

theorem shift_symmetric {t : Inputs R O V X} (hs : t.Symmetric) (m : X) : (t.shift m).Symmetric where
  I_left p q r s := by simp [Inputs.shift, hs.I_left p q r s]
  I_right p q r s := by simp [Inputs.shift, hs.I_right p q r s]
  T2_left a b i j := by simp [Inputs.shift, hs.T2_left a b i j, hs.U21_left m a b i j]; ring
  T2_right a b i j := by simp [Inputs.shift, hs.T2_right a b i j, hs.U21_right m a b i j]; ring
  S2 k n := by simp [Inputs.shift, hs.S2 k n]
  U12 k n a i := by simp [Inputs.shift, hs.U12 k n a i]
  U21_left n a b i j := by simp [Inputs.shift, hs.U21_left n a b i j, hs.U22_left m n a b i j]; ring
  U21_right n a b i j := by simp [Inputs.shift, hs.U21_right n a b i j, hs.U22_right m n a b i j]; ring
  U22 k n a b i j := by simp [Inputs.shift, hs.U22 k n a b i j]
  U22_left k n a b i j := by simp [Inputs.shift, hs.U22_left k n a b i j]
  U22_right k n a b i j := by simp [Inputs.shift, hs.U22_right k n a b i j]

theorem shift_truncated {t : Inputs R O V X} {n1 n2 : Nat} {u2 : Bool} (ht : t.Truncated n1 n2 u2)
    (m : X) : (t.shift m).Truncated n1 n2 u2 where
  S2 h := by simp [Inputs.shift, ht.S2 h]
  U12 h := by simp [Inputs.shift, ht.U12 h]
  U21 h := by simp [Inputs.shift, ht.U21 h, ht.U22 (.inr h)]
  U22 h := by simp [Inputs.shift, ht.U22 h]

theorem full_shift [DecidableEq O] [DecidableEq V] (eo : O → R) (ev : V → R) (t : Inputs R O V X)
    (m : X) : (t.full eo ev).shift m
      = (t.shift m).full (fun i => inl (eo i)) (fun a => inl (ev a)) := by
  simp only [Inputs.full, Inputs.shift]
  congr 1
  funext p q
  rcases p with i | a <;> rcases q with j | b <;> simp <;> split_ifs <;> simp

end

section

variable {R O V X : Type*} [Field R] [Algebra ℚ R] [Fintype O] [Fintype V] [Fintype X]
  [DecidableEq O] [DecidableEq V] {n1 n2 : Nat} {u2 : Bool} {eo : O → R} {ev : V → R}
  {t : Inputs R O V X}

/-- The singles are not changed by an iteration iff they solve the singles equation with the whole
Fock matrix. -/
theorem stepT1_fixed (h1 : 0 < n1) (h2 : 0 < n2) (hs : t.Symmetric) (ht : t.Truncated n1 n2 u2)
    {a : V} {i : O} (hd : eo i ≠ ev a) :
    stepT1 n1 n2 u2 eo ev t a i = t.T1 a i ↔ singlesText (t.full eo ev).dress a i = 0 := by
  have hd' := sub_ne_zero.2 hd
  rw [stepT1, div_eq_iff hd', opt_T1_text h1 h2 hs ht, singles_full, ← sub_eq_zero]
  constructor <;> intro h <;> linear_combination h

/-- The doubles are not changed by an iteration iff they solve the doubles equation with the whole
Fock matrix. -/
theorem stepT2_fixed (h1 : 0 < n1) (h2 : 0 < n2) (hs : t.Symmetric) (ht : t.Truncated n1 n2 u2)
    (hg : t.G = fun _ => 0) {a b : V} {i j : O} (hd : eo i + eo j - ev a - ev b ≠ 0) :
    stepT2 n1 n2 u2 eo ev t a b i j = t.T2 a b i j
      ↔ doublesText (t.full eo ev).dress a b i j = 0 := by
  have h := opt_T2_text h1 h2 hs ht a b i j
  simp only [hg, zero_mul, Finset.sum_const_zero, add_zero] at h
  rw [stepT2, div_eq_iff hd, h, doubles_full eo ev t hs.T2_left hs.T2_right, ← sub_eq_zero]
  constructor <;> intro h <;> linear_combination h

variable [DecidableEq X]

/-- The mode amplitudes are not changed by an iteration iff they solve the equation with twice
their frequency. -/
theorem stepS1_fixed (h1 : 0 < n1) (h2 : 0 < n2) (hs : t.Symmetric) (ht : t.Truncated n1 n2 u2)
    (hg : t.G = fun _ => 0) {m : X} (hw : t.w m ≠ 0) :
    stepS1 n1 n2 u2 t m = t.S1 m ↔ snd (energy (t.shift m)) + 2 * t.w m * t.S1 m = 0 := by
  rw [stepS1, div_eq_iff (neg_ne_zero.2 hw), opt_S1_derivative h1 h2 hs ht hg hw, ← sub_eq_zero]
  constructor <;> intro h <;> linear_combination h

theorem stepS2_fixed (h1 : 1 < n1) (h2 : 0 < n2) (hs : t.Symmetric) (ht : t.Truncated n1 n2 u2)
    (hg : t.G = fun _ => 0) {m n : X} (hw : t.w m + t.w n ≠ 0) (hw' : m = n → t.w m ≠ 0) :
    stepS2 n1 n2 u2 t m n = t.S2 m n
      ↔ snd (snd (energy ((t.shift n).shift m))) + 2 * (t.w m + t.w n) * t.S2 m n = 0 := by
  have hd : -t.w m - t.w n ≠ 0 := fun h => hw (by linear_combination -h)
  rw [stepS2, div_eq_iff hd, opt_S2_derivative h1 h2 hs ht hg hw', ← sub_eq_zero]
  constructor <;> intro h <;> linear_combination h

theorem stepU11_fixed (h1 : 0 < n1) (h2 : 0 < n2) (hs : t.Symmetric) (ht : t.Truncated n1 n2 u2)
    (hg : t.G = fun _ => 0) {m : X} {a : V} {i : O} (hd : eo i - ev a - t.w m ≠ 0) :
    stepU11 n1 n2 u2 eo ev t m a i = t.U11 m a i
      ↔ snd (singlesText ((t.full eo ev).shift m).dress a i) + 2 * t.w m * t.U11 m a i = 0 := by
  have h := ref_T1_text h1 h2 (shift_symmetric hs m) (shift_truncated ht m) a i
  have hG : (t.shift m).G = fun _ => 0 := by simp [Inputs.shift, hg]
  simp only [hG, zero_mul, Finset.sum_const_zero, add_zero] at h
  have hT : snd ((t.shift m).T1 a i) = t.U11 m a i := by simp [Inputs.shift]
  have hT' : fst ((t.shift m).T1 a i) = t.T1 a i := by simp [Inputs.shift]
  rw [stepU11, div_eq_iff hd, opt_U11_derivative h1 h2 hs ht hg, full_shift, singles_full, h,
    ← sub_eq_zero]
  simp only [snd_add, snd_mul, fst_sub, snd_sub, fst_inl, snd_inl, hT, hT', smul_eq_mul,
    MulOpposite.smul_eq_mul_unop]
  simp
  constructor <;> intro h <;> linear_combination h

/-- A fixed point does not solve the equation of a mode whose amplitude is not zero. -/
theorem stepS1_fails (h1 : 0 < n1) (h2 : 0 < n2) (hs : t.Symmetric) (ht : t.Truncated n1 n2 u2)
    (hg : t.G = fun _ => 0) {m : X} (hw : t.w m ≠ 0) (hf : stepS1 n1 n2 u2 t m = t.S1 m)
    (hS : t.S1 m ≠ 0) : snd (energy (t.shift m)) + t.w m * t.S1 m ≠ 0 := by
  rw [stepS1_fixed h1 h2 hs ht hg hw] at hf
  intro h
  exact mul_ne_zero hw hS (by linear_combination hf - h)

/-- A fixed point does not solve the equation of a coupled amplitude that is not zero. -/
theorem stepU11_fails (h1 : 0 < n1) (h2 : 0 < n2) (hs : t.Symmetric) (ht : t.Truncated n1 n2 u2)
    (hg : t.G = fun _ => 0) {m : X} {a : V} {i : O} (hd : eo i - ev a - t.w m ≠ 0)
    (hw : t.w m ≠ 0) (hf : stepU11 n1 n2 u2 eo ev t m a i = t.U11 m a i) (hU : t.U11 m a i ≠ 0) :
    snd (singlesText ((t.full eo ev).shift m).dress a i) + t.w m * t.U11 m a i ≠ 0 := by
  rw [stepU11_fixed h1 h2 hs ht hg hd] at hf
  intro h
  exact mul_ne_zero hw hU (by linear_combination hf - h)

end

section

variable {R : Type*} [Field R] [LinearOrder R] [IsStrictOrderedRing R]

/-- Mixing does not change the fixed points. -/
theorem mix_fixed (damp old new : R) : mix damp old new = old ↔ new = old := by
  unfold mix
  split_ifs with h
  · constructor
    · intro e
      have h' : (1 - damp) * (new - old) = 0 := by linear_combination e
      rcases mul_eq_zero.1 h' with h' | h'
      · exact absurd (by linear_combination -h' : damp = 1) h.ne
      · exact sub_eq_zero.1 h'
    · rintro rfl
      ring
  · rfl

/-- Mixing gives an amplitude between the old and the new one. -/
theorem mix_between {damp old new : R} (h0 : 0 ≤ damp) :
    (mix damp old new - old) * (mix damp old new - new) ≤ 0 := by
  unfold mix
  split_ifs with h
  · have e : (damp * old + (1 - damp) * new - old) * (damp * old + (1 - damp) * new - new)
        = -(damp * (1 - damp) * (new - old) ^ 2) := by ring
    rw [e]
    have := mul_nonneg (mul_nonneg h0 (sub_pos.2 h).le) (sq_nonneg (new - old))
    linarith
  · simp

end

/-! A fixed point with nonzero mode amplitudes. -/

def num : Fin 1 ⊕ Fin 1 → ℚ
  | .inl _ => 0
  | .inr _ => 1

/-- One occupied and one virtual spin orbital, one mode. -/
def fixT : Inputs ℚ (Fin 1) (Fin 1) (Fin 1) where
  F p q := match p, q with
    | .inl _, .inr _ => 1
    | .inr _, .inl _ => 16 / 9
    | _, _ => 0
  I p q r s := (num p - num q) * (num r - num s)
  g _ p q := match p, q with
    | .inl _, .inr _ => 1
    | .inr _, .inl _ => 2 / 3
    | _, _ => 0
  w _ := 1
  G _ := 0
  T1 _ _ := 1
  T2 _ _ _ _ := 0
  S1 _ := -2 / 3
  S2 _ _ := 0
  U11 _ _ _ := 1
  U12 _ _ _ _ := 0
  U21 _ _ _ _ _ := 0
  U22 _ _ _ _ _ _ := 0

theorem fixT_symmetric : fixT.Symmetric := by
  constructor <;> intros <;> simp only [fixT] <;> ring

theorem fixT_truncated : fixT.Truncated 1 1 false :=
  ⟨fun _ => rfl, fun _ => rfl, fun _ => rfl, fun _ => rfl⟩

set_option maxRecDepth 100000 in
theorem fixT_fixed : stepT1 1 1 false 0 1 fixT 0 0 = fixT.T1 0 0
    ∧ stepT2 1 1 false 0 1 fixT 0 0 0 0 = fixT.T2 0 0 0 0
    ∧ stepS1 1 1 false fixT 0 = fixT.S1 0 ∧ stepU11 1 1 false 0 1 fixT 0 0 0 = fixT.U11 0 0 0 := by
  refine ⟨by decide +kernel, by decide +kernel, ?_, by decide +kernel⟩
  have h : result (imdsBuild 1 1 false ++ optS 1 1 false) fixT S1 [.x 0] = 2 / 3 := by decide +kernel
  unfold stepS1 Opt.resS1
  rw [h]
  norm_num [fixT]

/-- There is a fixed point of all amplitudes that does not solve the equations. -/
example : snd (energy (fixT.shift 0)) + fixT.w 0 * fixT.S1 0 ≠ 0
    ∧ snd (singlesText ((fixT.full 0 1).shift 0).dress 0 0) + fixT.w 0 * fixT.U11 0 0 0 ≠ 0
    ∧ singlesText (fixT.full 0 1).dress 0 0 = 0 :=
  ⟨stepS1_fails (by decide) (by decide) fixT_symmetric fixT_truncated rfl (by norm_num [fixT])
      fixT_fixed.2.2.1 (by norm_num [fixT]),
    stepU11_fails (by decide) (by decide) fixT_symmetric fixT_truncated rfl (by norm_num [fixT])
      (by norm_num [fixT]) fixT_fixed.2.2.2 (by norm_num [fixT]),
    (stepT1_fixed (by decide) (by decide) fixT_symmetric fixT_truncated (by norm_num)).1
      fixT_fixed.1⟩

example : mix (1 / 4 : ℚ) 0 2 = 3 / 2 := by norm_num [mix]

end OpenMS.Qedcc
