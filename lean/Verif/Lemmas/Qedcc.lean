/-
Symmetries and derivatives of the input arrays of the QED-CCSD residuals, in the
form needed by `Lemmas/Einsum.lean` and `Lemmas/EinsumDerive.lean`.
-/
import Verif.Model.QedccInput
import Verif.Lemmas.EinsumDerive
import Verif.Lemmas.EinsumSearch

namespace OpenMS.Qedcc

open Einsum TrivSqZeroExt

set_option linter.unusedSectionVars false

/-- Symmetries of the input arrays.  An array that the truncation leaves out has the
symmetry with sign zero. -/
def sym (n1 n2 : Nat) (u2 g0 : Bool) (r : Nat) : List Sym :=
  match r with
  | 0 | 5 => [⟨1, [0, 1]⟩]
  | 1 | 6 => [⟨1, [0, 1, 2, 3]⟩, ⟨-1, [1, 0, 2, 3]⟩, ⟨-1, [0, 1, 3, 2]⟩, ⟨1, [1, 0, 3, 2]⟩]
  | 2 | 9 => [⟨1, [0, 1, 2]⟩]
  | 4 | 7 => [⟨1, [0]⟩]
  | 8 => bif Nat.blt n1 2 then [⟨0, [0, 1]⟩] else [⟨1, [0, 1]⟩, ⟨1, [1, 0]⟩]
  | 10 => bif Nat.blt n2 2 then [⟨0, [0, 1, 2, 3]⟩] else [⟨1, [0, 1, 2, 3]⟩, ⟨1, [1, 0, 2, 3]⟩]
  | 11 => bif u2 then [⟨1, [0, 1, 2, 3, 4]⟩, ⟨-1, [0, 2, 1, 3, 4]⟩, ⟨-1, [0, 1, 2, 4, 3]⟩,
      ⟨1, [0, 2, 1, 4, 3]⟩] else [⟨0, [0, 1, 2, 3, 4]⟩]
  | 12 => bif Nat.blt n2 2 || !u2 then [⟨0, [0, 1, 2, 3, 4, 5]⟩] else
      [⟨1, [0, 1, 2, 3, 4, 5]⟩, ⟨-1, [0, 1, 3, 2, 4, 5]⟩, ⟨-1, [0, 1, 2, 3, 5, 4]⟩,
      ⟨1, [0, 1, 3, 2, 5, 4]⟩, ⟨1, [1, 0, 2, 3, 4, 5]⟩, ⟨-1, [1, 0, 3, 2, 4, 5]⟩,
      ⟨-1, [1, 0, 2, 3, 5, 4]⟩, ⟨1, [1, 0, 3, 2, 5, 4]⟩]
  | 13 => bif g0 then [⟨0, [0]⟩] else [⟨1, [0]⟩]
  | _ => []

/-- Derivatives of the input arrays along a mode. -/
def rule (r : Nat) : Rule :=
  match r with
  | 5 => ⟨[9], false⟩
  | 6 => ⟨[11], false⟩
  | 7 => ⟨[8], true⟩
  | 9 => ⟨[10], false⟩
  | 11 => ⟨[12], false⟩
  | _ => ⟨[], false⟩

section

variable {R O V X : Type*} [CommRing R]

theorem at1_neg {A : Type*} (f g : A → R) (h : ∀ a, f a = -g a) (a : Option A) :
    at1 f a = -at1 g a := by
  cases a <;> simp [at1, h]

theorem at1_congr {A : Type*} {f g : A → R} (h : ∀ a, f a = g a) (a : Option A) :
    at1 f a = at1 g a := by
  cases a <;> simp [at1, h]

theorem at1_zero {A : Type*} (a : Option A) : at1 (fun _ => (0 : R)) a = 0 := by
  cases a <;> rfl

theorem at1_add {A : Type*} (f g : A → R) (a : Option A) :
    at1 (fun a => f a + g a) a = at1 f a + at1 g a := by
  cases a <;> simp [at1]

theorem at1_comm {A B : Type*} (f : A → B → R) (a : Option A) (b : Option B) :
    at1 (fun a => at1 (fun b => f a b) b) a = at1 (fun b => at1 (fun a => f a b) a) b := by
  cases a <;> cases b <;> rfl

theorem at4_left {A B : Type*} {f : A → A → B → B → R} (h : ∀ a b i j, f b a i j = -f a b i j)
    (a b : Option A) (i j : Option B) :
    at1 (fun x => at1 (fun y => at1 (fun k => at1 (fun l => f x y k l) j) i) b) a
      = -at1 (fun x => at1 (fun y => at1 (fun k => at1 (fun l => f x y k l) j) i) a) b := by
  rcases a with _ | a <;> rcases b with _ | b <;> rcases i with _ | i <;> rcases j with _ | j <;>
    simp only [at1, neg_zero]
  rw [h a b, neg_neg]

theorem at4_right {A B : Type*} {f : A → A → B → B → R} (h : ∀ a b i j, f a b j i = -f a b i j)
    (a b : Option A) (i j : Option B) :
    at1 (fun x => at1 (fun y => at1 (fun k => at1 (fun l => f x y k l) j) i) b) a
      = -at1 (fun x => at1 (fun y => at1 (fun k => at1 (fun l => f x y k l) i) j) b) a := by
  rcases a with _ | a <;> rcases b with _ | b <;> rcases i with _ | i <;> rcases j with _ | j <;>
    simp only [at1, neg_zero]
  rw [h a b i j, neg_neg]

theorem at4_both {A B : Type*} {f : A → A → B → B → R} (h : ∀ a b i j, f b a i j = -f a b i j)
    (h' : ∀ a b i j, f a b j i = -f a b i j) (a b : Option A) (i j : Option B) :
    at1 (fun x => at1 (fun y => at1 (fun k => at1 (fun l => f x y k l) j) i) b) a
      = at1 (fun x => at1 (fun y => at1 (fun k => at1 (fun l => f x y k l) i) j) a) b := by
  rw [at4_left h, at4_right h', neg_neg]

theorem at2_symm {A : Type*} {f : A → A → R} (h : ∀ a b, f b a = f a b) (a b : Option A) :
    at1 (fun x => at1 (fun y => f x y) b) a = at1 (fun x => at1 (fun y => f x y) a) b := by
  rcases a with _ | a <;> rcases b with _ | b <;> simp only [at1]
  rw [h]

theorem ten_respects {t : Inputs R O V X} (hs : t.Symmetric) {n1 n2 : Nat} {u2 g0 : Bool}
    (ht : t.Truncated n1 n2 u2) (hg : g0 = true → t.G = fun _ => 0) :
    Respects (sym n1 n2 u2 g0) t.ten := by
  have h2 : ∀ {n : Nat}, Nat.blt n 2 = true → n < 2 := fun {n} h => by
    simpa [Nat.blt, Nat.ble_eq] using h
  intro r s hs' ix hl
  unfold sym at hs'
  split at hs'
  · simp only [List.mem_cons, List.not_mem_nil, or_false] at hs'
    subst hs'
    match ix, hl with
    | [_, _], _ => simp [permute]
  · simp only [List.mem_cons, List.not_mem_nil, or_false] at hs'
    subst hs'
    match ix, hl with
    | [_, _], _ => simp [permute]
  · simp only [List.mem_cons, List.not_mem_nil, or_false] at hs'
    rcases hs' with rfl | rfl | rfl | rfl <;> match ix, hl with
    | [p, q, r, s], _ =>
      simp [permute, Inputs.ten]
      try first
        | exact at4_left hs.I_left _ _ _ _
        | exact at4_right hs.I_right _ _ _ _
        | exact at4_both hs.I_left hs.I_right _ _ _ _
  · simp only [List.mem_cons, List.not_mem_nil, or_false] at hs'
    rcases hs' with rfl | rfl | rfl | rfl <;> match ix, hl with
    | [p, q, r, s], _ =>
      simp [permute, Inputs.ten]
      try first
        | exact at4_left hs.T2_left _ _ _ _
        | exact at4_right hs.T2_right _ _ _ _
        | exact at4_both hs.T2_left hs.T2_right _ _ _ _
  · simp only [List.mem_cons, List.not_mem_nil, or_false] at hs'
    subst hs'
    match ix, hl with
    | [_, _, _], _ => simp [permute]
  · simp only [List.mem_cons, List.not_mem_nil, or_false] at hs'
    subst hs'
    match ix, hl with
    | [_, _, _], _ => simp [permute]
  · simp only [List.mem_cons, List.not_mem_nil, or_false] at hs'
    subst hs'
    match ix, hl with
    | [_], _ => simp [permute]
  · simp only [List.mem_cons, List.not_mem_nil, or_false] at hs'
    subst hs'
    match ix, hl with
    | [_], _ => simp [permute]
  · cases h : Nat.blt n1 2
    · rw [h] at hs'
      simp only [cond_false, List.mem_cons, List.not_mem_nil, or_false] at hs'
      rcases hs' with rfl | rfl <;> match ix, hl with
      | [p, q], _ =>
        simp [permute, Inputs.ten]
        try exact at2_symm hs.S2 _ _
    · rw [h] at hs'
      simp only [cond_true, List.mem_cons, List.not_mem_nil, or_false] at hs'
      subst hs'
      match ix, hl with
      | [p, q], _ => simp [Inputs.ten, ht.S2 (h2 h), at1_zero]
  · cases h : Nat.blt n2 2
    · rw [h] at hs'
      simp only [cond_false, List.mem_cons, List.not_mem_nil, or_false] at hs'
      rcases hs' with rfl | rfl <;> match ix, hl with
      | [p, q, r, s], _ =>
        simp [permute, Inputs.ten]
        try exact at2_symm (f := fun m n => at1 (fun a => at1 (fun i => t.U12 m n a i) (occ s))
          (vir r)) (fun m n => by simp only [hs.U12]) _ _
    · rw [h] at hs'
      simp only [cond_true, List.mem_cons, List.not_mem_nil, or_false] at hs'
      subst hs'
      match ix, hl with
      | [p, q, r, s], _ => simp [Inputs.ten, ht.U12 (h2 h), at1_zero]
  · cases h : u2
    · rw [h] at hs'
      simp only [cond_false, List.mem_cons, List.not_mem_nil, or_false] at hs'
      subst hs'
      match ix, hl with
      | [m, p, q, r, s], _ => simp [Inputs.ten, ht.U21 h, at1_zero]
    · rw [h] at hs'
      simp only [cond_true, List.mem_cons, List.not_mem_nil, or_false] at hs'
      rcases hs' with rfl | rfl | rfl | rfl <;> match ix, hl with
      | [m, p, q, r, s], _ =>
        simp [permute, Inputs.ten]
        try first
          | exact at1_neg _ _ (fun m => at4_left (hs.U21_left m) _ _ _ _) _
          | exact at1_neg _ _ (fun m => at4_right (hs.U21_right m) _ _ _ _) _
          | exact at1_congr (fun m => at4_both (hs.U21_left m) (hs.U21_right m) _ _ _ _) _
  · cases h : (Nat.blt n2 2 || !u2)
    · rw [h] at hs'
      simp only [cond_false, List.mem_cons, List.not_mem_nil, or_false] at hs'
      have hm : ∀ (m n : Option X) (p q : Option V) (r s : Option O),
          at1 (fun m => at1 (fun n => at1 (fun a => at1 (fun b => at1 (fun i => at1 (fun j =>
            t.U22 m n a b i j) s) r) q) p) n) m
          = at1 (fun k => at1 (fun l => at1 (fun a => at1 (fun b => at1 (fun i => at1 (fun j =>
            t.U22 k l a b i j) s) r) q) p) m) n := fun m n p q r s =>
        at2_symm (f := fun m n => at1 (fun a => at1 (fun b => at1 (fun i => at1 (fun j =>
            t.U22 m n a b i j) s) r) q) p) (fun m n => by simp only [hs.U22]) _ _
      rcases hs' with rfl | rfl | rfl | rfl | rfl | rfl | rfl | rfl <;> match ix, hl with
      | [m, n, p, q, r, s], _ =>
        simp [permute, Inputs.ten]
        try first
          | exact at1_neg _ _ (fun m => at1_neg _ _ (fun n =>
              at4_left (hs.U22_left m n) _ _ _ _) _) _
          | exact at1_neg _ _ (fun m => at1_neg _ _ (fun n =>
              at4_right (hs.U22_right m n) _ _ _ _) _) _
          | exact at1_congr (fun m => at1_congr (fun n =>
              at4_both (hs.U22_left m n) (hs.U22_right m n) _ _ _ _) _) _
          | exact hm _ _ _ _ _ _
          | (rw [hm]; exact at1_neg _ _ (fun m => at1_neg _ _ (fun n =>
              at4_left (hs.U22_left m n) _ _ _ _) _) _)
          | (rw [hm]; exact at1_neg _ _ (fun m => at1_neg _ _ (fun n =>
              at4_right (hs.U22_right m n) _ _ _ _) _) _)
          | (rw [hm]; exact at1_congr (fun m => at1_congr (fun n =>
              at4_both (hs.U22_left m n) (hs.U22_right m n) _ _ _ _) _) _)
    · rw [h] at hs'
      simp only [cond_true, List.mem_cons, List.not_mem_nil, or_false] at hs'
      subst hs'
      have h' : n2 < 2 ∨ u2 = false := by
        rcases Bool.or_eq_true_iff.1 h with h | h
        · exact Or.inl (h2 h)
        · exact Or.inr (by simpa using h)
      match ix, hl with
      | [m, n, p, q, r, s], _ => simp [Inputs.ten, ht.U22 h', at1_zero]
  · cases h : g0
    · rw [h] at hs'
      simp only [cond_false, List.mem_cons, List.not_mem_nil, or_false] at hs'
      subst hs'
      match ix, hl with
      | [_], _ => simp [permute]
    · rw [h] at hs'
      simp only [cond_true, List.mem_cons, List.not_mem_nil, or_false] at hs'
      subst hs'
      match ix, hl with
      | [p], _ => simp [Inputs.ten, hg h, at1_zero]
  · simp at hs'

theorem fst_at1 {A : Type*} (f : A → DualNumber R) (a : Option A) :
    fst (at1 f a) = at1 (fun a => fst (f a)) a := by
  cases a <;> simp [at1]

theorem snd_at1 {A : Type*} (f : A → DualNumber R) (a : Option A) :
    snd (at1 f a) = at1 (fun a => snd (f a)) a := by
  cases a <;> simp [at1]

variable [DecidableEq X]

theorem fst_shift (t : Inputs R O V X) (m : X) :
    (fun r ix => fst ((t.shift m).ten r ix)) = t.ten := by
  funext r ix
  unfold Inputs.ten
  split <;> simp [fst_at1, Inputs.shift]

variable [Algebra ℚ R] [Fintype O] [Fintype V] [Fintype X]

/-- Number of axes of the arrays. -/
def arity (r : Nat) : Nat :=
  match r with
  | 0 | 5 | 8 => 2
  | 1 | 6 | 10 => 4
  | 2 | 9 => 3
  | 4 | 7 | 13 => 1
  | 11 => 5
  | 12 => 6
  | _ => 0

theorem ten_arity {R : Type*} [CommRing R] (t : Inputs R O V X) {r : Nat} {ix : List (Idx O V X)}
    (h : ix.length ≠ arity r) : t.ten r ix = 0 := by
  unfold Inputs.ten
  split <;> first | (exact absurd rfl h) | rfl

theorem ten_above {R : Type*} [CommRing R] (t : Inputs R O V X) {r : Nat} (h : 13 < r)
    (ix : List (Idx O V X)) : t.ten r ix = 0 := by
  unfold Inputs.ten
  split <;> first | omega | rfl

theorem snd_shift_const (t : Inputs R O V X) (m : X) {r : Nat} (h5 : r ≠ 5) (h6 : r ≠ 6)
    (h7 : r ≠ 7) (h9 : r ≠ 9) (h11 : r ≠ 11) (ix : List (Idx O V X)) :
    snd ((t.shift m).ten r ix) = 0 := by
  unfold Inputs.ten
  split <;> first | contradiction | simp [snd_at1, Inputs.shift, at1_zero]

theorem shift_moves (t : Inputs R O V X) (m : X) : Moves rule m (t.shift m).ten := by
  refine ⟨fun d => at1 (fun k => if k = m then 1 else 0) (mode d), ?_, ?_⟩
  · intro f
    simp [mode, at1]
  · intro r ix
    have hf : ∀ s ix, fst ((t.shift m).ten s ix) = t.ten s ix := fun s ix =>
      congrFun (congrFun (fst_shift t m) s) ix
    simp only [hf]
    by_cases hl : ix.length = arity r
    · unfold rule
      split
      · match ix, hl with
        | [a, i], _ =>
          change snd (at1 (fun a => at1 (fun i => inl (t.T1 a i) + inr (t.U11 m a i)) (occ i))
            (vir a)) = at1 (fun a => at1 (fun i => t.U11 m a i) (occ i)) (vir a) + 0 + 0
          simp only [snd_at1, snd_add, snd_inl, snd_inr, zero_add, add_zero]
      · match ix, hl with
        | [a, b, i, j], _ =>
          change snd (at1 (fun a => at1 (fun b => at1 (fun i => at1 (fun j =>
            inl (t.T2 a b i j) + inr (t.U21 m a b i j)) (occ j)) (occ i)) (vir b)) (vir a))
            = at1 (fun a => at1 (fun b => at1 (fun i => at1 (fun j => t.U21 m a b i j) (occ j))
              (occ i)) (vir b)) (vir a) + 0 + 0
          simp only [snd_at1, snd_add, snd_inl, snd_inr, zero_add, add_zero]
      · match ix, hl with
        | [n], _ =>
          change snd (at1 (fun n => inl (t.S1 n) + inr (t.S2 m n + if n = m then 1 else 0)) (mode n))
            = at1 (fun n => t.S2 m n) (mode n) + 0 + at1 (fun k => if k = m then 1 else 0) (mode n)
          simp only [snd_at1, snd_add, snd_inl, snd_inr, zero_add, add_zero, at1_add, at1_zero]
      · match ix, hl with
        | [n, a, i], _ =>
          change snd (at1 (fun n => at1 (fun a => at1 (fun i =>
            inl (t.U11 n a i) + inr (t.U12 m n a i)) (occ i)) (vir a)) (mode n))
            = at1 (fun n => at1 (fun a => at1 (fun i => t.U12 m n a i) (occ i)) (vir a)) (mode n)
              + 0 + 0
          simp only [snd_at1, snd_add, snd_inl, snd_inr, zero_add, add_zero]
      · match ix, hl with
        | [n, a, b, i, j], _ =>
          change snd (at1 (fun n => at1 (fun a => at1 (fun b => at1 (fun i => at1 (fun j =>
            inl (t.U21 n a b i j) + inr (t.U22 m n a b i j)) (occ j)) (occ i)) (vir b)) (vir a))
              (mode n))
            = at1 (fun n => at1 (fun a => at1 (fun b => at1 (fun i => at1 (fun j =>
              t.U22 m n a b i j) (occ j)) (occ i)) (vir b)) (vir a)) (mode n) + 0 + 0
          simp only [snd_at1, snd_add, snd_inl, snd_inr, zero_add, add_zero]
      · rename_i h5 h6 h7 h9 h11
        rw [snd_shift_const t m h5 h6 h7 h9 h11]
        simp
    · rw [ten_arity _ hl]
      unfold rule
      split
      case h_3 =>
        match ix, hl with
        | [], _ => simp [Inputs.ten]
        | _ :: _ :: _, _ => simp [ten_arity, arity]
      all_goals simp at hl ⊢
      all_goals exact (ten_arity _ (by simpa [arity] using hl)).symm

end

end OpenMS.Qedcc
