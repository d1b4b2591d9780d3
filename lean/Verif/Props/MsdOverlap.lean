import Verif.Model.MsdOverlap
import Mathlib.LinearAlgebra.Matrix.SchurComplement
import Mathlib.Tactic

/-! C177: overlaps of excited determinants with a walker. -/

namespace OpenMS.MsdOverlap

open Matrix

variable {k n : ℕ}

/-- Writes that agree with a table leave the table where something is written. -/
theorem foldl_writes {κ V : Type*} [DecidableEq κ] (F : κ → V) (l : List (κ × V)) (hl : ∀ w ∈ l, w.2 = F w.1) (t : κ → V)
    (x : κ) (hx : t x = F x ∨ x ∈ l.map Prod.fst) : l.foldl (fun t w => Function.update t w.1 w.2) t x = F x := by
  induction l generalizing t with
  | nil => simpa using hx
  | cons w l ih =>
    rw [List.foldl_cons]
    refine ih (fun w hw => hl w (List.mem_cons_of_mem _ hw)) _ ?_
    by_cases h : x = w.1
    · left; rw [h, Function.update_self, hl w List.mem_cons_self]
    · rw [Function.update_of_ne h]
      rcases hx with hx | hx
      · exact Or.inl hx
      · rw [List.map_cons, List.mem_cons] at hx
        exact Or.inr (hx.resolve_left h)

theorem fill_eq (G : ℕ → ℕ → ℂ) (e : Fin k → ℕ × ℕ) (t : Fin k × Fin k → ℂ) (i j : Fin k) :
    fill G e t (i, j) = G (e i).1 (e j).2 := by
  unfold fill
  refine foldl_writes (fun x : Fin k × Fin k => G (e x.1).1 (e x.2).2) _ ?_ t (i, j) (Or.inr ?_)
  · intro w hw
    unfold writes at hw
    simp only [List.mem_flatMap, List.mem_cons, List.mem_filter, List.not_mem_nil, or_false] at hw
    obtain ⟨a, -, h | ⟨b, -, h | h⟩⟩ := hw <;> rw [h]
  · unfold writes
    rw [List.mem_map]
    rcases lt_trichotomy i j with h | h | h
    · refine ⟨((i, j), G (e i).1 (e j).2), ?_, rfl⟩
      simp only [List.mem_flatMap, List.mem_cons, List.mem_filter, List.not_mem_nil, or_false]
      exact ⟨i, List.mem_finRange i, Or.inr ⟨j, ⟨List.mem_finRange j, by simpa using h⟩, Or.inl rfl⟩⟩
    · refine ⟨((i, i), G (e i).1 (e i).2), ?_, by rw [h]⟩
      simp only [List.mem_flatMap, List.mem_cons]
      exact ⟨i, List.mem_finRange i, Or.inl rfl⟩
    · refine ⟨((i, j), G (e i).1 (e j).2), ?_, rfl⟩
      simp only [List.mem_flatMap, List.mem_cons, List.mem_filter, List.not_mem_nil, or_false]
      exact ⟨j, List.mem_finRange j, Or.inr ⟨i, ⟨List.mem_finRange i, by simpa using h⟩, Or.inr rfl⟩⟩

theorem detLoop_eq (G : ℕ → ℕ → ℂ) (t : Fin k × Fin k → ℂ) (l : List (Fin k → ℕ × ℕ)) :
    detLoop G t l = l.map fun e => (Matrix.of fun i j : Fin k => G (e i).1 (e j).2).det := by
  induction l generalizing t with
  | nil => rfl
  | cons e l ih =>
    unfold detLoop
    rw [ih, List.map_cons]
    simp only [fill_eq]

/-- A determinant that differs from the unit matrix in some rows. -/
theorem det_rows (X : Matrix (Fin n) (Fin n) ℂ) (pos : Fin k → Fin n) (hpos : Function.Injective pos)
    (hX : ∀ i, (∀ l, i ≠ pos l) → ∀ j, X i j = if i = j then 1 else 0) :
    X.det = (Matrix.of fun a b : Fin k => X (pos a) (pos b)).det := by
  obtain ⟨U, hU⟩ : ∃ U : Matrix (Fin n) (Fin k) ℂ, U = Matrix.of fun i l => if i = pos l then 1 else 0 := ⟨_, rfl⟩
  obtain ⟨V, hV⟩ : ∃ V : Matrix (Fin k) (Fin n) ℂ, V = Matrix.of fun l j => X (pos l) j - if pos l = j then 1 else 0 := ⟨_, rfl⟩
  have h1 : X = 1 + U * V := by
    ext i j
    rw [Matrix.add_apply, Matrix.mul_apply, Matrix.one_apply, hU, hV]
    simp only [Matrix.of_apply, ite_mul, one_mul, zero_mul]
    by_cases h : ∃ l, i = pos l
    · obtain ⟨l, rfl⟩ := h
      rw [Finset.sum_eq_single l]
      · rw [if_pos rfl]; ring
      · intro b _ hb; rw [if_neg fun h => hb (hpos h).symm]
      · simp
    · push Not at h
      rw [Finset.sum_eq_zero fun l _ => if_neg (h l), hX i h, add_zero]
  have h2 : 1 + V * U = Matrix.of fun a b : Fin k => X (pos a) (pos b) := by
    ext a b
    rw [Matrix.add_apply, Matrix.mul_apply, Matrix.one_apply, hU, hV]
    simp only [Matrix.of_apply, mul_ite, mul_one, mul_zero, Finset.sum_ite_eq', Finset.mem_univ, if_true]
    by_cases h : a = b
    · simp [h]
    · rw [if_neg h, if_neg fun h' => h (hpos h')]; ring
  rw [← h2, Matrix.det_one_add_mul_comm, ← h1]

/-- C177 partial: were the names there, and `Gf` the half-rotated Green's function with the occupied orbital first, then the number
returned for every excitation, times the overlap of the reference, would be the overlap of the determinant in which the orbitals are
replaced.  `W` are the overlaps of the trial's orbitals with those of the walker, `o` is the occupation of the reference, `o'` that of
the excited determinant, in the order of the reference.  Missing: the names, the order of the axes. -/
theorem excited_partial (W : ℕ → Fin n → ℂ) (o : Fin n → ℕ) (R : Matrix (Fin n) (Fin n) ℂ) (hR : ∀ i j, R i j = W (o i) j)
    (hd : R.det ≠ 0) (G : ℕ → ℕ → ℂ) (hG : ∀ (i : Fin n) q, G i.val q = ∑ j, W q j * R⁻¹ j i) (d2 : ℕ) (occMap : ℕ → ℕ)
    (frozen : ℕ) (dets : List (Fin k → ℕ × ℕ)) (h0 : dets ≠ [])
    (hb : ∀ d ∈ dets, ∀ i, occMap (d i).1 + frozen < n ∧ (d i).2 + frozen < d2)
    (hinj : ∀ d ∈ dets, Function.Injective fun i => occMap (d i).1) :
    ∃ r, calcOvlpIexc true n d2 G occMap frozen dets = .ok (some r) ∧ r.length = dets.length ∧
      ∀ (t : ℕ) (ht : t < dets.length) (htr : t < r.length) (o' : Fin n → ℕ),
        (∀ (i : Fin n) (l : Fin k), i.val = occMap (dets[t] l).1 + frozen → o' i = (dets[t] l).2 + frozen) →
        (∀ i : Fin n, (∀ l : Fin k, i.val ≠ occMap (dets[t] l).1 + frozen) → o' i = o i) →
        r[t] * R.det = (Matrix.of fun i j => W (o' i) j).det := by
  unfold calcOvlpIexc
  rw [if_neg h0, if_neg (by simp), if_neg (by
    rintro ⟨d, hd', i, h | h⟩
    · exact absurd (hb d hd' i).1 (not_lt.2 h)
    · exact absurd (hb d hd' i).2 (not_lt.2 h))]
  refine ⟨_, rfl, by rw [detLoop_eq]; simp, ?_⟩
  intro t ht htr o' ho1 ho2
  have hmem : dets[t] ∈ dets := List.getElem_mem ht
  have hval : (detLoop G (fun _ => 0) (dets.map (idx occMap frozen)))[t] =
      (Matrix.of fun i j : Fin k => G (occMap (dets[t] i).1 + frozen) ((dets[t] j).2 + frozen)).det := by
    simp only [detLoop_eq, List.getElem_map]
    rfl
  rw [hval]
  generalize dets[t] = d at *
  obtain ⟨pos, hp⟩ : ∃ pos : Fin k → Fin n, ∀ l, (pos l).val = occMap (d l).1 + frozen :=
    ⟨fun l => ⟨_, (hb d hmem l).1⟩, fun l => rfl⟩
  have hpi : Function.Injective pos := by
    intro a b hab
    refine hinj d hmem ?_
    have := congrArg Fin.val hab
    rw [hp, hp] at this
    exact Nat.add_right_cancel this
  obtain ⟨E, hE⟩ : ∃ E : Matrix (Fin n) (Fin n) ℂ, E = Matrix.of fun i j => W (o' i) j := ⟨_, rfl⟩
  have hu : IsUnit R.det := isUnit_iff_ne_zero.2 hd
  have hX : ∀ i, (∀ l, i ≠ pos l) → ∀ j, (E * R⁻¹) i j = if i = j then 1 else 0 := by
    intro i hi j
    have : o' i = o i := ho2 i fun l h => hi l (Fin.ext (by rw [h, hp]))
    rw [← Matrix.one_apply, ← Matrix.mul_nonsing_inv R hu, Matrix.mul_apply, Matrix.mul_apply]
    refine Finset.sum_congr rfl fun x _ => ?_
    rw [hE, Matrix.of_apply, this, hR]
  have hsub : (Matrix.of fun i j : Fin k => G (occMap (d i).1 + frozen) ((d j).2 + frozen)) =
      (Matrix.of fun a b : Fin k => (E * R⁻¹) (pos a) (pos b))ᵀ := by
    ext a b
    rw [Matrix.transpose_apply, Matrix.of_apply, Matrix.of_apply, ← hp, hG, Matrix.mul_apply]
    refine Finset.sum_congr rfl fun x _ => ?_
    rw [hE, Matrix.of_apply, ho1 (pos b) b (hp b)]
  rw [hsub, Matrix.det_transpose, ← det_rows _ pos hpi hX, Matrix.det_mul, mul_assoc, ← Matrix.det_mul,
    Matrix.nonsing_inv_mul R hu, Matrix.det_one, mul_one, hE]

/-- C177 fails: with at least one determinant `calc_ovlp_iexc` raises, without one it returns `None`. -/
theorem names_fails (d1 d2 : ℕ) (G : ℕ → ℕ → ℂ) (occMap : ℕ → ℕ) (frozen : ℕ) (dets : List (Fin k → ℕ × ℕ)) :
    (dets ≠ [] → calcOvlpIexc false d1 d2 G occMap frozen dets = .error "NameError") ∧
      ∀ names, calcOvlpIexc names d1 d2 G occMap frozen ([] : List (Fin k → ℕ × ℕ)) = .ok none := by
  constructor
  · intro h
    unfold calcOvlpIexc
    rw [if_neg h, if_pos rfl]
  · intro names
    unfold calcOvlpIexc
    rw [if_pos rfl]

/-- C177: an index beyond either axis is refused. -/
theorem range_refused (d1 d2 : ℕ) (G : ℕ → ℕ → ℂ) (occMap : ℕ → ℕ) (frozen : ℕ) (dets : List (Fin k → ℕ × ℕ)) (d : Fin k → ℕ × ℕ)
    (hd : d ∈ dets) (i : Fin k) (hi : d1 ≤ occMap (d i).1 + frozen ∨ d2 ≤ (d i).2 + frozen) :
    calcOvlpIexc true d1 d2 G occMap frozen dets = .error "IndexError" := by
  unfold calcOvlpIexc
  rw [if_neg (List.ne_nil_of_mem hd), if_neg (by simp), if_pos ⟨d, hd, i, hi⟩]

/-- C177 fails: the arrays `Ghalfa`, `Ghalfb` that are passed have the occupied orbitals in the second axis; an excitation into an
orbital beyond the number of electrons is out of range. -/
theorem axes_fails (nao : ℕ) (G : ℕ → ℕ → ℂ) (occMap : ℕ → ℕ) (frozen : ℕ) (dets : List (Fin k → ℕ × ℕ)) (d : Fin k → ℕ × ℕ)
    (hd : d ∈ dets) (i : Fin k) (hi : n ≤ (d i).2 + frozen) :
    calcOvlpIexc true nao n G occMap frozen dets = .error "IndexError" := by
  unfold calcOvlpIexc
  rw [if_neg (List.ne_nil_of_mem hd), if_neg (by simp), if_pos ⟨d, hd, i, Or.inr hi⟩]

/-- C177 fails: `compute_MSD_ovlp` gives every determinant the overlap of the reference; for every reference and every single
excitation there is a walker that the excited determinant is orthogonal to. -/
theorem ones_fails (o : Fin n → ℕ) (ho : Function.Injective o) (i : Fin n) (q : ℕ) (hq : ∀ j, q ≠ o j) :
    ∃ W : ℕ → Fin n → ℂ, (Matrix.of fun a b => W (o a) b).det = 1 ∧
      (Matrix.of fun a b => W (Function.update o i q a) b).det = 0 ∧
      ∀ ndets, ∀ x ∈ computeMSDOvlp ndets, x * (Matrix.of fun a b => W (o a) b).det ≠
        (Matrix.of fun a b => W (Function.update o i q a) b).det := by
  have h1 : (Matrix.of fun a b => if o a = o b then (1 : ℂ) else 0).det = 1 := by
    have : (Matrix.of fun a b => if o a = o b then (1 : ℂ) else 0) = 1 := by
      ext a b
      rw [Matrix.of_apply, Matrix.one_apply]
      exact if_congr ho.eq_iff rfl rfl
    rw [this, Matrix.det_one]
  have h2 : (Matrix.of fun a b => if Function.update o i q a = o b then (1 : ℂ) else 0).det = 0 := by
    refine Matrix.det_eq_zero_of_row_eq_zero i fun j => ?_
    rw [Matrix.of_apply, Function.update_self, if_neg (hq j)]
  refine ⟨fun r j => if r = o j then 1 else 0, h1, h2, fun ndets x hx => ?_⟩
  rw [h1, h2, List.eq_of_mem_replicate hx]
  norm_num

/-- One electron, reference orbital 0 excited to orbital 1. -/
example : ∃ r, calcOvlpIexc true 1 2 (fun _ q => if q = 0 then 1 else 5) (fun c => c) 0 [fun _ : Fin 1 => (0, 1)] = .ok (some r) ∧
    r.length = 1 ∧ ∀ x ∈ r, x = 5 := by
  unfold calcOvlpIexc
  rw [if_neg (by simp), if_neg (by simp), if_neg (by simp [idx])]
  refine ⟨_, rfl, by simp [detLoop_eq], ?_⟩
  simp [detLoop_eq, idx]

/-- The same with the hypotheses of `excited_partial`: the overlap of the excited determinant is five. -/
example : ∃ r, calcOvlpIexc true 1 2 (fun _ q => if q = 0 then 1 else 5) (fun c => c) 0 [fun _ : Fin 1 => (0, 1)] = .ok (some r) ∧
    ∀ h : 0 < r.length, r[0] * (1 : Matrix (Fin 1) (Fin 1) ℂ).det =
      (Matrix.of fun (_ _ : Fin 1) => (if (1 : ℕ) = 0 then (1 : ℂ) else 5)).det := by
  obtain ⟨r, h1, -, h3⟩ := excited_partial (n := 1) (k := 1) (fun q _ => if q = 0 then 1 else 5) (fun _ => 0) 1
    (by intro i j; rw [Subsingleton.elim i j]; simp) (by simp) (fun _ q => if q = 0 then 1 else 5) (by intro i q; simp [Subsingleton.elim i 0])
    2 (fun c => c) 0 [fun _ => (0, 1)] (by simp) (by simp) (by intro d _ a b _; exact Subsingleton.elim a b)
  exact ⟨r, h1, fun h => h3 0 (by simp) h (fun _ => 1) (by intro i l _; rfl)
    (by intro i hi; exact absurd (by simp) (hi 0))⟩

end OpenMS.MsdOverlap
