import Verif.Model.Subspace
import Mathlib.Tactic

/-!
# C134: the projected matrix of a subspace eigensolver
-/

namespace OpenMS.Subspace
set_option linter.unusedSectionVars false

variable {n : Type*} [Fintype n]

/-- All assignments to a cell have the value `v` and there is one. -/
theorem foldl_write (ws : List (ℕ × ℕ × ℂ)) (h : ℕ → ℕ → ℂ) (i j : ℕ) (v : ℂ)
    (hall : ∀ w ∈ ws, w.1 = i → w.2.1 = j → w.2.2 = v) (hex : h i j = v ∨ ∃ w ∈ ws, w.1 = i ∧ w.2.1 = j) :
    ws.foldl write h i j = v := by
  induction ws generalizing h with
  | nil => simpa using hex
  | cons w l ih =>
    rw [List.foldl_cons]
    refine ih _ (fun w' hw' => hall w' (List.mem_cons_of_mem _ hw')) ?_
    by_cases hw : i = w.1 ∧ j = w.2.1
    · left
      unfold write
      rw [if_pos hw]
      exact hall w List.mem_cons_self hw.1.symm hw.2.symm
    · rcases hex with hh | ⟨w', hm, h1, h2⟩
      · left; unfold write; rw [if_neg hw]; exact hh
      · rcases List.mem_cons.1 hm with rfl | hm
        · exact absurd ⟨h1.symm, h2.symm⟩ hw
        · exact Or.inr ⟨w', hm, h1, h2⟩

theorem dotc_conj (x y : n → ℂ) : (starRingEnd ℂ) (dotc x y) = dotc y x := by
  unfold dotc
  rw [map_sum]
  exact Finset.sum_congr rfl fun k _ => by simp [mul_comm]

/-- What the Hermitian version stores: the lower triangle and its mirror image. -/
noncomputable def lower (xs ax : ℕ → n → ℂ) (i j : ℕ) : ℂ :=
  if j < i then dotc (xs i) (ax j) else if i < j then (starRingEnd ℂ) (dotc (xs j) (ax i))
    else ((dotc (xs i) (ax i)).re : ℂ)

theorem fillHerm_step (h : ℕ → ℕ → ℂ) (xs ax : ℕ → n → ℂ) (row0 k : ℕ)
    (hh : ∀ i < row0, ∀ j < row0, h i j = lower xs ax i j) :
    ∀ i < row0 + k, ∀ j < row0 + k,
      fillHerm h ax (fun p => xs (row0 + p)) (fun p => ax (row0 + p)) row0 k i j = lower xs ax i j := by
  intro i hi j hj
  unfold fillHerm
  refine foldl_write _ _ _ _ _ ?_ ?_
  · rintro ⟨a, b, v⟩ hw rfl rfl
    simp only [newHerm, crossHerm, List.mem_append, List.mem_flatMap, List.mem_range, List.mem_cons,
      List.not_mem_nil, or_false, Prod.mk.injEq] at hw
    unfold lower
    rcases hw with ⟨ip, hip, ⟨jp, hjp, ⟨rfl, rfl, rfl⟩ | ⟨rfl, rfl, rfl⟩⟩ | ⟨rfl, rfl, rfl⟩⟩ |
      ⟨a', ha', jp, hjp, ⟨rfl, rfl, rfl⟩ | ⟨rfl, rfl, rfl⟩⟩
    · rw [if_pos (by dsimp only; omega)]
    · rw [if_neg (by dsimp only; omega), if_pos (by dsimp only; omega)]
    · rw [if_neg (by dsimp only; omega), if_neg (by dsimp only; omega)]
    · rw [if_pos (by dsimp only; omega)]
    · rw [if_neg (by dsimp only; omega), if_pos (by dsimp only; omega)]
  · by_cases h1 : i < row0 <;> by_cases h2 : j < row0
    · exact Or.inl (hh i h1 j h2)
    · right
      refine ⟨(i, row0 + (j - row0), (starRingEnd ℂ) (dotc (xs (row0 + (j - row0))) (ax i))),
        List.mem_append_right _ ?_, rfl, by dsimp only; omega⟩
      simp only [crossHerm, List.mem_flatMap, List.mem_range]
      exact ⟨i, h1, j - row0, by omega, by simp⟩
    · right
      refine ⟨(row0 + (i - row0), j, dotc (xs (row0 + (i - row0))) (ax j)), List.mem_append_right _ ?_,
        by dsimp only; omega, rfl⟩
      simp only [crossHerm, List.mem_flatMap, List.mem_range]
      exact ⟨j, h2, i - row0, by omega, by simp⟩
    · right
      rcases lt_trichotomy i j with hij | hij | hij
      · refine ⟨(row0 + (i - row0), row0 + (j - row0),
          (starRingEnd ℂ) (dotc (xs (row0 + (j - row0))) (ax (row0 + (i - row0))))),
          List.mem_append_left _ ?_, by dsimp only; omega, by dsimp only; omega⟩
        simp only [newHerm, List.mem_flatMap, List.mem_range, List.mem_append]
        exact ⟨j - row0, by omega, Or.inl ⟨i - row0, by omega, by simp⟩⟩
      · refine ⟨(row0 + (i - row0), row0 + (i - row0),
          ((dotc (xs (row0 + (i - row0))) (ax (row0 + (i - row0)))).re : ℂ)),
          List.mem_append_left _ ?_, by dsimp only; omega, by dsimp only; omega⟩
        simp only [newHerm, List.mem_flatMap, List.mem_range, List.mem_append]
        exact ⟨i - row0, by omega, Or.inr (by simp)⟩
      · refine ⟨(row0 + (i - row0), row0 + (j - row0),
          dotc (xs (row0 + (i - row0))) (ax (row0 + (j - row0)))),
          List.mem_append_left _ ?_, by dsimp only; omega, by dsimp only; omega⟩
        simp only [newHerm, List.mem_flatMap, List.mem_range, List.mem_append]
        exact ⟨i - row0, by omega, Or.inl ⟨j - row0, by omega, by simp⟩⟩

theorem fillGen_step (h : ℕ → ℕ → ℂ) (xs ax : ℕ → n → ℂ) (row0 k : ℕ)
    (hh : ∀ i < row0, ∀ j < row0, h i j = dotc (xs i) (ax j)) :
    ∀ i < row0 + k, ∀ j < row0 + k,
      fillGen h xs ax (fun p => xs (row0 + p)) (fun p => ax (row0 + p)) row0 k i j = dotc (xs i) (ax j) := by
  intro i hi j hj
  unfold fillGen
  refine foldl_write _ _ _ _ _ ?_ ?_
  · rintro ⟨a, b, v⟩ hw rfl rfl
    simp only [newGen, crossGen, List.mem_append, List.mem_flatMap, List.mem_map, List.mem_range, List.mem_cons,
      List.not_mem_nil, or_false, Prod.mk.injEq] at hw
    rcases hw with ⟨ip, hip, jp, hjp, rfl, rfl, rfl⟩ | ⟨a', ha', jp, hjp, ⟨rfl, rfl, rfl⟩ | ⟨rfl, rfl, rfl⟩⟩ <;> rfl
  · by_cases h1 : i < row0 <;> by_cases h2 : j < row0
    · exact Or.inl (hh i h1 j h2)
    · right
      refine ⟨(i, row0 + (j - row0), dotc (xs i) (ax (row0 + (j - row0)))), List.mem_append_right _ ?_, rfl,
        by dsimp only; omega⟩
      simp only [crossGen, List.mem_flatMap, List.mem_range]
      exact ⟨i, h1, j - row0, by omega, by simp⟩
    · right
      refine ⟨(row0 + (i - row0), j, dotc (xs (row0 + (i - row0))) (ax j)), List.mem_append_right _ ?_,
        by dsimp only; omega, rfl⟩
      simp only [crossGen, List.mem_flatMap, List.mem_range]
      exact ⟨j, h2, i - row0, by omega, by simp⟩
    · right
      refine ⟨(row0 + (i - row0), row0 + (j - row0), dotc (xs (row0 + (i - row0))) (ax (row0 + (j - row0)))),
        List.mem_append_left _ ?_, by dsimp only; omega, by dsimp only; omega⟩
      simp only [newGen, List.mem_flatMap, List.mem_range, List.mem_map]
      exact ⟨i - row0, by omega, j - row0, by omega, rfl⟩

theorem growHerm_lower (h : ℕ → ℕ → ℂ) (xs ax : ℕ → n → ℂ) (row0 : ℕ) (ks : List ℕ)
    (hh : ∀ i < row0, ∀ j < row0, h i j = lower xs ax i j) :
    (growHerm h xs ax row0 ks).2 = row0 + ks.sum ∧ ∀ i < row0 + ks.sum, ∀ j < row0 + ks.sum,
      (growHerm h xs ax row0 ks).1 i j = lower xs ax i j := by
  induction ks generalizing h row0 with
  | nil => exact ⟨by simp [growHerm], by simpa [growHerm] using hh⟩
  | cons k ks ih =>
    have := ih _ (row0 + k) (fillHerm_step h xs ax row0 k hh)
    simp only [growHerm, List.sum_cons, ← add_assoc]
    exact this

/-- C134: `_fill_heff` gives the matrix of the operator in the subspace, however many vectors are added in
every cycle, from an arbitrary content of the array. -/
theorem fill_general (h : ℕ → ℕ → ℂ) (xs ax : ℕ → n → ℂ) (ks : List ℕ) :
    (growGen h xs ax 0 ks).2 = ks.sum ∧ ∀ i < ks.sum, ∀ j < ks.sum,
      (growGen h xs ax 0 ks).1 i j = ∑ k, (starRingEnd ℂ) (xs i k) * ax j k := by
  have key : ∀ (ks : List ℕ) (h : ℕ → ℕ → ℂ) (row0 : ℕ),
      (∀ i < row0, ∀ j < row0, h i j = dotc (xs i) (ax j)) →
      (growGen h xs ax row0 ks).2 = row0 + ks.sum ∧ ∀ i < row0 + ks.sum, ∀ j < row0 + ks.sum,
        (growGen h xs ax row0 ks).1 i j = dotc (xs i) (ax j) := by
    intro ks
    induction ks with
    | nil => intro h row0 hh; exact ⟨by simp [growGen], by simpa [growGen] using hh⟩
    | cons k ks ih =>
      intro h row0 hh
      have := ih _ (row0 + k) (fillGen_step h xs ax row0 k hh)
      simp only [growGen, List.sum_cons, ← add_assoc]
      exact this
  have := key ks h 0 (by simp)
  rw [zero_add] at this
  exact this

/-- C134: the array of the Hermitian version is Hermitian with a real diagonal, for any images. -/
theorem fill_hermitian_symm (h : ℕ → ℕ → ℂ) (xs ax : ℕ → n → ℂ) (ks : List ℕ) (i j : ℕ) (hi : i < ks.sum)
    (hj : j < ks.sum) :
    (starRingEnd ℂ) ((growHerm h xs ax 0 ks).1 i j) = (growHerm h xs ax 0 ks).1 j i := by
  obtain ⟨-, hl⟩ := growHerm_lower h xs ax 0 ks (by simp)
  rw [zero_add] at hl
  rw [hl i hi j hj, hl j hj i hi]
  unfold lower
  rcases lt_trichotomy i j with h1 | h1 | h1
  · rw [if_neg (by omega), if_pos h1, if_pos h1, Complex.conj_conj]
  · subst h1; simp
  · rw [if_pos h1, if_neg (by omega), if_pos h1]

/-- C134: the Hermitian version gives the matrix of the operator exactly if that matrix is Hermitian. -/
theorem fill_hermitian_iff (h : ℕ → ℕ → ℂ) (xs ax : ℕ → n → ℂ) (ks : List ℕ) :
    (∀ i < ks.sum, ∀ j < ks.sum, (growHerm h xs ax 0 ks).1 i j = ∑ k, (starRingEnd ℂ) (xs i k) * ax j k) ↔
      ∀ i < ks.sum, ∀ j < ks.sum, ∑ k, (starRingEnd ℂ) (xs i k) * ax j k = ∑ k, (starRingEnd ℂ) (ax i k) * xs j k := by
  obtain ⟨-, hl⟩ := growHerm_lower h xs ax 0 ks (by simp)
  rw [zero_add] at hl
  have hc : ∀ i j, ∑ k, (starRingEnd ℂ) (ax i k) * xs j k = (starRingEnd ℂ) (dotc (xs j) (ax i)) :=
    fun i j => (dotc_conj _ _).symm
  constructor
  · intro H i hi j hj
    have := fill_hermitian_symm h xs ax ks j i hj hi
    rw [H i hi j hj, H j hj i hi] at this
    rw [hc, ← this]; rfl
  · intro H i hi j hj
    rw [hl i hi j hj]
    change _ = dotc (xs i) (ax j)
    have H' : dotc (xs i) (ax j) = (starRingEnd ℂ) (dotc (xs j) (ax i)) := (H i hi j hj).trans (hc i j)
    unfold lower
    rcases lt_trichotomy i j with h1 | h1 | h1
    · rw [if_neg (by omega), if_pos h1, H']
    · subst h1
      rw [if_neg (lt_irrefl _), if_neg (lt_irrefl _)]
      exact Complex.conj_eq_iff_re.1 H'.symm
    · rw [if_pos h1]

/-- C134: for a Hermitian operator both versions agree. -/
theorem fill_agree [DecidableEq n] (h h' : ℕ → ℕ → ℂ) (A : n → n → ℂ) (hA : ∀ a b, (starRingEnd ℂ) (A a b) = A b a)
    (xs : ℕ → n → ℂ) (ks : List ℕ) (i j : ℕ) (hi : i < ks.sum) (hj : j < ks.sum) :
    (growHerm h xs (fun i a => ∑ b, A a b * xs i b) 0 ks).1 i j =
      (growGen h' xs (fun i a => ∑ b, A a b * xs i b) 0 ks).1 i j := by
  rw [(fill_general h' xs _ ks).2 i hi j hj]
  refine (fill_hermitian_iff h xs _ ks).2 ?_ i hi j hj
  intro i _ j _
  simp only [Finset.mul_sum, map_sum, map_mul, hA, Finset.sum_mul]
  rw [Finset.sum_comm]
  exact Finset.sum_congr rfl fun a _ => Finset.sum_congr rfl fun b _ => by ring

/-- Two vectors added one at a time: the operator `[[0, 1], [0, 0]]` is not Hermitian and the Hermitian
version returns zero where the matrix has a one. -/
example : (growHerm (fun _ _ => 0) (fun i (k : Fin 2) => if i = k then 1 else 0)
    (fun i (k : Fin 2) => if i = 1 ∧ k = 0 then 1 else 0) 0 [1, 1]).1 0 1 = 0 ∧
    (growGen (fun _ _ => 0) (fun i (k : Fin 2) => if i = k then 1 else 0)
    (fun i (k : Fin 2) => if i = 1 ∧ k = 0 then 1 else 0) 0 [1, 1]).1 0 1 = 1 := by
  constructor
  · rw [(growHerm_lower _ _ _ 0 [1, 1] (by simp)).2 0 (by simp) 1 (by simp)]
    simp [lower, dotc]
  · rw [(fill_general _ _ _ [1, 1]).2 0 (by simp) 1 (by simp)]
    simp

end OpenMS.Subspace
