import Verif.Model.Spin
import Mathlib.Tactic
import Mathlib.LinearAlgebra.Matrix.Trace
import Mathlib.Algebra.Algebra.Basic

namespace OpenMS.Spin

open Matrix

/-! ### Zero field splitting -/

theorem zfs_symm (D E : ℝ) : (zfsTensor (.inl D) E)ᵀ = zfsTensor (.inl D) E := by
  ext i j
  fin_cases i <;> fin_cases j <;> rfl

theorem zfs_trace (D E : ℝ) : (zfsTensor (.inl D) E).trace = 0 := by
  simp only [zfsTensor, zfsNumber, trace, Fin.sum_univ_three, diag_apply]
  simp
  ring

/-- In every algebra of spin operators the tensor gives `D (Sz² - S²/3) + E (Sx² - Sy²)`. -/
theorem zfs_hamiltonian {A : Type*} [Ring A] [Algebra ℝ A] (S : Fin 3 → A) (D E : ℝ) :
    ∑ i, ∑ j, zfsTensor (.inl D) E i j • (S i * S j) =
      D • (S 2 * S 2 - (1 / 3 : ℝ) • (S 0 * S 0 + S 1 * S 1 + S 2 * S 2)) +
        E • (S 0 * S 0 - S 1 * S 1) := by
  simp only [zfsTensor, zfsNumber, Fin.sum_univ_three]
  simp
  module

/-- The tensor determines both parameters. -/
theorem zfs_inj {D E D' E' : ℝ} (h : zfsTensor (.inl D) E = zfsTensor (.inl D') E') :
    D = D' ∧ E = E' := by
  have h0 := congrFun (congrFun h 0) 0
  have h2 := congrFun (congrFun h 2) 2
  simp [zfsTensor, zfsNumber] at h0 h2
  constructor
  · linarith
  · linarith

/-- A tensor is taken as it is and the second parameter is ignored. -/
theorem zfs_tensor_partial (T : T3) (E : ℝ) : zfsTensor (.inr T) E = T := rfl

/-! ### g factor -/

theorem g_number (x : ℝ) : setGfactor (.num x) = some (.tensor (x • 1)) := rfl

theorem g_one (x : ℝ) : setGfactor (.vec [x]) = some (.tensor (x • 1)) := rfl

theorem g_tensor (t : T3) : setGfactor (.tensor t) = some (.tensor t) := rfl

/-- A stack of tensors that are not all isotropic is kept. -/
theorem g_stack_partial {ts : List T3} (h1 : ts.length ≠ 1)
    (h : ∃ t ∈ ts, (∃ i j, i ≠ j ∧ 1e-8 < |t i j|) ∨ ∃ i j, t i i ≠ t j j) :
    setGfactor (.stack ts) = some (.stack ts) := by
  classical
  have hn : ¬ ∀ t ∈ ts, isotropic t := by
    push Not
    obtain ⟨t, ht, h⟩ := h
    refine ⟨t, ht, fun hi => ?_⟩
    rcases h with ⟨i, j, hij, h⟩ | ⟨i, j, h⟩
    · exact absurd (hi.1 i j hij) (not_le.2 h)
    · have h01 := hi.2.1
      have h12 := hi.2.2
      apply h
      fin_cases i <;> fin_cases j <;> simp [h01, h12]
  match ts, h1 with
  | [], _ => simp at h
  | t :: u :: l, _ => simp only [setGfactor, checkGfactor, if_neg hn]

/-- A stack of isotropic tensors is never kept: three become one tensor that mixes the three spins,
every other number of them raises an exception. -/
theorem g_stack_fails {ts : List T3}
    (hi : ∀ t ∈ ts, (∀ i j, i ≠ j → |t i j| ≤ 1e-8) ∧ ∀ i j, t i i = t j j) :
    setGfactor (.stack ts) = match ts with
      | [a, b, c] => some (.tensor (diagonal ![a 0 0, b 0 0, c 0 0]))
      | _ => none := by
  classical
  have h : ∀ t ∈ ts, isotropic t := fun t ht => ⟨(hi t ht).1, (hi t ht).2 0 1, (hi t ht).2 1 2⟩
  match ts with
  | [] => simp [setGfactor, checkGfactor, eyeMul]
  | [_] => rfl
  | [_, _] => simp only [setGfactor, checkGfactor, if_pos h]; rfl
  | [_, _, _] => simp only [setGfactor, checkGfactor, if_pos h]; rfl
  | _ :: _ :: _ :: _ :: _ => simp only [setGfactor, checkGfactor, if_pos h]; rfl

/-- One tensor in a stack raises an exception, isotropic or not. -/
theorem g_single_fails (t : T3) : setGfactor (.stack [t]) = none := rfl

theorem one_isotropic (x : ℝ) :
    (∀ i j, i ≠ j → |(x • (1 : T3)) i j| ≤ 1e-8) ∧ ∀ i j, (x • (1 : T3)) i i = (x • (1 : T3)) j j := by
  refine ⟨fun i j hij => ?_, by simp⟩
  simp [Matrix.one_apply_ne hij]
  norm_num

/-- Two spins, the first with an axial tensor. -/
example : setGfactor (.stack [diagonal ![2, 2, 3], 1]) = some (.stack [diagonal ![2, 2, 3], 1]) :=
  g_stack_partial (by simp) ⟨_, List.mem_cons_self .., .inr ⟨1, 2, by simp⟩⟩

/-- Two spins with the free electron value. -/
example : setGfactor (.stack [(2 : ℝ) • 1, (2 : ℝ) • 1]) = none :=
  g_stack_fails (ts := [(2 : ℝ) • 1, (2 : ℝ) • 1]) fun t ht => by
    simp only [List.mem_cons, List.not_mem_nil, or_false, or_self] at ht
    exact ht ▸ one_isotropic 2

/-! ### Objects -/

/-- Dimension of a spin `k/2`. -/
theorem ndim_half (k : ℕ) : ndim (k / 2) = k + 1 := by
  unfold ndim
  rw [Int.floor_eq_iff, div_mul_cancel₀ _ (two_ne_zero' ℝ)]
  push_cast
  constructor <;> norm_num

theorem updateDict_of_notMem {V : Type*} (d : String → Option V) (kw : List (String × V)) {a : String}
    (h : a ∉ kw.map Prod.fst) : updateDict d kw a = d a := by
  unfold updateDict
  induction kw generalizing d with
  | nil => rfl
  | cons x kw ih =>
    simp only [List.map_cons, List.mem_cons, not_or] at h
    rw [List.foldl_cons, ih _ h.2, Function.update_of_ne h.1]

theorem updateDict_last {V : Type*} (d : String → Option V) (kw kw' : List (String × V)) {a : String}
    {v : V} (h : a ∉ kw'.map Prod.fst) : updateDict d (kw ++ (a, v) :: kw') a = some v := by
  have : updateDict d (kw ++ (a, v) :: kw') =
      updateDict (Function.update (updateDict d kw) a (some v)) kw' := by
    simp only [updateDict, List.foldl_append, List.foldl_cons]
  rw [this, updateDict_of_notMem _ _ h, Function.update_self]

theorem notMem_kwargs {V : Type*} {named : List String} (call : List (String × V)) {a : String}
    (h : a ∈ named) : a ∉ (kwargs named call).map Prod.fst := by
  simp only [kwargs, List.mem_map, List.mem_filter, decide_eq_true_eq, not_exists, not_and]
  rintro x ⟨-, hx⟩ rfl
  exact hx h

/-- A keyword that is not named in the signature sets its attribute. -/
theorem attr_set {call call' : List (String × ℝ)} {a : String} {x : ℝ}
    (ha : a ∉ ["coord", "D", "E"]) (h : a ∉ call'.map Prod.fst) :
    spinAttrs (call ++ (a, x) :: call') a = some x := by
  unfold spinAttrs
  have e : kwargs ["coord", "D", "E"] (call ++ (a, x) :: call') =
      kwargs ["coord", "D", "E"] call ++ (a, x) :: kwargs ["coord", "D", "E"] call' := by
    unfold kwargs
    rw [List.filter_append, List.filter_cons_of_pos (by simpa using ha)]
  rw [e]
  refine updateDict_last _ _ _ fun hh => h ?_
  simp only [kwargs, List.mem_map, List.mem_filter] at hh ⊢
  obtain ⟨y, ⟨hy, -⟩, rfl⟩ := hh
  exact ⟨y, hy, rfl⟩

example : spinAttrs [("D", 3), ("spin", 1)] "spin" = some 1 :=
  attr_set (call := [("D", 3)]) (call' := []) (by decide) (by simp)

/-- The attributes `D` and `E` are zero for every call: their keywords never reach the update. -/
theorem attr_DE_fails (call : List (String × ℝ)) :
    spinAttrs call "D" = some 0 ∧ spinAttrs call "E" = some 0 := by
  constructor <;> unfold spinAttrs <;>
    rw [updateDict_of_notMem _ _ (notMem_kwargs call (by decide))] <;> simp

/-- A system has size one for every call, however many spins were passed. -/
theorem system_size_fails (call : List (String × List ℝ)) : systemSize call = some 1 := by
  unfold systemSize systemAttrs
  rw [updateDict_of_notMem _ _ (notMem_kwargs call (by decide))]
  simp

end OpenMS.Spin
