/-
Concrete inputs of the QED-CCSD residuals for the examples.
-/
import Verif.Lemmas.QedccProof

namespace OpenMS.Qedcc

open Einsum

/-- A number for every spin orbital. -/
def rank : Fin 2 ⊕ Fin 2 → ℚ
  | .inl i => i.val
  | .inr a => 2 + a.val ^ 2 + a.val

/-- Two occupied and two virtual spin orbitals, two modes. -/
def exInputs : Inputs ℚ (Fin 2) (Fin 2) (Fin 2) where
  F p q := rank p * rank q
  I p q r s := (rank p - rank q) * (rank r - rank s)
  g m p q := rank p + rank q + m.val
  w m := 1 + m.val
  G _ := 0
  T1 a i := a.val + 2 * i.val
  T2 a b i j := (a.val - b.val) * (i.val - j.val)
  S1 m := 1 + m.val
  S2 m n := m.val + n.val
  U11 m a i := m.val - a.val + i.val
  U12 m n a i := m.val * n.val + a.val * i.val
  U21 m a b i j := (2 + m.val) * (a.val - b.val) * (i.val - j.val)
  U22 m n a b i j := (2 + m.val + n.val) * (a.val - b.val) * (i.val - j.val)

theorem exInputs_symmetric : exInputs.Symmetric := by
  constructor <;> intros <;> simp only [exInputs] <;> ring

theorem exInputs_truncated : exInputs.Truncated 2 2 true :=
  ⟨fun h => absurd h (by decide), fun h => absurd h (by decide), fun h => by simp at h,
    fun h => by simp at h⟩

theorem exInputs_G : exInputs.G = fun _ => 0 := rfl

/-- The same with one mode. -/
def exOne : Inputs ℚ (Fin 2) (Fin 2) (Fin 1) where
  F := exInputs.F
  I := exInputs.I
  g m := exInputs.g m.succ
  w m := exInputs.w m.succ
  G _ := 0
  T1 := exInputs.T1
  T2 := exInputs.T2
  S1 m := exInputs.S1 m.succ
  S2 m n := exInputs.S2 m.succ n.succ
  U11 m := exInputs.U11 m.succ
  U12 m n := exInputs.U12 m.succ n.succ
  U21 m := exInputs.U21 m.succ
  U22 m n := exInputs.U22 m.succ n.succ

theorem exOne_symmetric : exOne.Symmetric := by
  constructor <;> intros <;> simp only [exOne, exInputs] <;> ring

theorem exOne_truncated : exOne.Truncated 2 2 true :=
  ⟨fun h => absurd h (by decide), fun h => absurd h (by decide), fun h => by simp at h,
    fun h => by simp at h⟩

theorem exOne_G : exOne.G = fun _ => 0 := rfl

end OpenMS.Qedcc
