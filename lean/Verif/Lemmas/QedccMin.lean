/-
The tensor programs depend on the truncation only through a few comparisons, so
that orders above two (three) give the same program as two (three).
-/
import Verif.Lemmas.Qedcc

namespace OpenMS.Qedcc

open Einsum

set_option linter.unusedSimpArgs false

theorem lt_min0 (n : Nat) : (0 < min n 2) = (0 < n) := by simp

theorem lt_min1 (n : Nat) : (1 < min n 2) = (1 < n) := by simp

theorem lt_min2 (n : Nat) : (min n 2 < 2) = (n < 2) := by simp

theorem lt_min30 (n : Nat) : (0 < min n 3) = (0 < n) := by simp

theorem lt_min31 (n : Nat) : (1 < min n 3) = (1 < n) := by simp

theorem lt_min32 (n : Nat) : (2 < min n 3) = (2 < n) := by simp

theorem lt_min33 (n : Nat) : (min n 3 < 2) = (n < 2) := by simp

set_option maxRecDepth 20000 in
theorem refT1_min (n1 n2 : Nat) (u2 : Bool) : refT1 n1 n2 u2 = refT1 (min n1 2) (min n2 2) u2 := by
  unfold refT1
  simp only [lt_min0, lt_min1]

set_option maxRecDepth 20000 in
theorem refT2_min (n1 n2 : Nat) (u2 : Bool) : refT2 n1 n2 u2 = refT2 (min n1 2) (min n2 2) u2 := by
  unfold refT2
  simp only [lt_min0, lt_min1]

set_option maxRecDepth 20000 in
theorem refS_min (n1 n2 : Nat) (u2 : Bool) : refS n1 n2 u2 = refS (min n1 2) (min n2 2) u2 := by
  unfold refS
  simp only [lt_min0, lt_min1]

set_option maxRecDepth 20000 in
theorem refU1_min (n1 n2 : Nat) (u2 : Bool) : refU1 n1 n2 u2 = refU1 (min n1 2) (min n2 2) u2 := by
  unfold refU1
  simp only [lt_min0, lt_min1]

set_option maxRecDepth 20000 in
theorem refU2_min (n1 n2 : Nat) (u2 : Bool) : refU2 n1 n2 u2 = refU2 (min n1 2) (min n2 2) u2 := by
  unfold refU2
  simp only [lt_min0, lt_min1]

set_option maxRecDepth 20000 in
theorem singleU1_min (n1 n2 : Nat) (u2 : Bool) : singleU1 n1 n2 u2 = singleU1 (min n1 2) (min n2 2) u2 := by
  unfold singleU1
  simp only [lt_min0, lt_min1]

set_option maxRecDepth 20000 in
theorem imdsBuild_min (n1 n2 : Nat) (u2 : Bool) : imdsBuild n1 n2 u2 = imdsBuild (min n1 2) (min n2 2) u2 := by
  unfold imdsBuild
  simp only [lt_min0, lt_min1]

set_option maxRecDepth 20000 in
theorem optT_min (n1 n2 : Nat) (u2 : Bool) : optT n1 n2 u2 = optT (min n1 2) (min n2 2) u2 := by
  unfold optT
  simp only [lt_min0, lt_min1]

set_option maxRecDepth 20000 in
theorem optS_min (n1 n2 : Nat) (u2 : Bool) : optS n1 n2 u2 = optS (min n1 2) (min n2 2) u2 := by
  unfold optS
  simp only [lt_min0, lt_min1]

set_option maxRecDepth 20000 in
theorem optU1_min (n1 n2 : Nat) (u2 : Bool) : optU1 n1 n2 u2 = optU1 (min n1 2) (min n2 2) u2 := by
  unfold optU1
  simp only [lt_min0, lt_min1]

set_option maxRecDepth 20000 in
theorem optU2_min (n1 n2 : Nat) (u2 : Bool) : optU2 n1 n2 u2 = optU2 (min n1 2) (min n2 2) u2 := by
  unfold optU2
  simp only [lt_min0, lt_min1]

set_option maxRecDepth 20000 in
theorem singleU2_min (n1 n2 : Nat) (u2 : Bool) :
    singleU2 n1 n2 u2 = singleU2 (min n1 3) (min n2 2) u2 := by
  unfold singleU2
  simp only [lt_min0, lt_min1, lt_min30, lt_min31, lt_min32]

theorem sym_min (n1 n2 : Nat) (u2 g0 : Bool) :
    sym n1 n2 u2 g0 = sym (min n1 2) (min n2 2) u2 g0 := by
  have h (n : Nat) : Nat.blt (min n 2) 2 = Nat.blt n 2 := by
    rw [Bool.eq_iff_iff]
    simp [Nat.blt, Nat.ble_eq]
  unfold sym
  simp only [h]

/-- A property of the truncation need only be verified for orders one and two. -/
theorem of_orders {P : Nat → Nat → Prop} (hP : ∀ n1 n2, P (min n1 2) (min n2 2) → P n1 n2)
    (h11 : P 1 1) (h12 : P 1 2) (h21 : P 2 1) (h22 : P 2 2) {n1 n2 : Nat} (h1 : 0 < n1)
    (h2 : 0 < n2) : P n1 n2 := by
  refine hP n1 n2 ?_
  rcases (by omega : min n1 2 = 1 ∨ min n1 2 = 2) with h | h <;>
    rcases (by omega : min n2 2 = 1 ∨ min n2 2 = 2) with h' | h' <;> rw [h, h'] <;> assumption

end OpenMS.Qedcc
