/-
Integrals transformed with the singles amplitudes, as inputs and as a tensor program.
-/
import Verif.Lemmas.EinsumBlock
import Verif.Lemmas.QedccProof
import Verif.Lemmas.QedccEval

set_option linter.unusedSimpArgs false
set_option linter.unusedSectionVars false

namespace OpenMS.Qedcc

open Einsum

section

variable {R O V X : Type*} [CommRing R] [Fintype O] [Fintype V]

/-- `exp(-T1) a†_p exp(T1)`: transformation of an index of a creation operator. -/
def dressL (T1 : V → O → R) (f : O ⊕ V → R) : O ⊕ V → R
  | .inl i => f (.inl i)
  | .inr a => f (.inr a) - ∑ i, T1 a i * f (.inl i)

/-- `exp(-T1) a_q exp(T1)`: transformation of an index of an annihilation operator. -/
def dressR (T1 : V → O → R) (f : O ⊕ V → R) : O ⊕ V → R
  | .inl i => f (.inl i) + ∑ a, T1 a i * f (.inr a)
  | .inr a => f (.inr a)

/-- The inputs of the Hamiltonian `exp(-T1) H exp(T1)`, without singles. -/
def Inputs.dress (t : Inputs R O V X) : Inputs R O V X :=
  { t with
    F := fun p q => dressL t.T1 (fun p => dressR t.T1 (fun q =>
      t.F p q + ∑ k, ∑ c, t.T1 c k * t.I p (.inl k) q (.inr c)) q) p
    I := fun p q r s => dressL t.T1 (fun p => dressL t.T1 (fun q => dressR t.T1 (fun r =>
      dressR t.T1 (fun s => t.I p q r s) s) r) q) p
    g := fun m p q => dressL t.T1 (fun p => dressR t.T1 (fun q => t.g m p q) q) p
    G := fun m => t.G m + ∑ k, ∑ c, t.T1 c k * t.g m (.inl k) (.inr c)
    T1 := fun _ _ => 0 }

/-- Position of an orbital. -/
def pos : O ⊕ V → Idx O V X
  | .inl i => .o i
  | .inr a => .v a

/-- Kind of an orbital. -/
def knd : O ⊕ V → Kind
  | .inl _ => .occ
  | .inr _ => .vir

end

/-- Number of a block. -/
def code : List Kind → Nat
  | [] => 0
  | .vir :: ks => 2 ^ ks.length + code ks
  | _ :: ks => code ks

/-- Transformation of axis `j` of a block. -/
def stageDef (j : Nat) (left : Bool) (src dst : List Kind → Nat) (ks : List Kind) : Def :=
  ⟨dst ks, ⟨⟨1, 0⟩, axes ks, [⟨src ks, ks, axes ks⟩]⟩ ::
    match left, ks.getD j .mode with
    | true, .vir => [⟨⟨-1, 0⟩, axes ks, [T1old.at [(axes ks).getD j 0, 30],
        ⟨src (ks.set j .occ), ks.set j .occ, (axes ks).set j 30⟩]⟩]
    | false, .occ => [⟨⟨1, 0⟩, axes ks, [T1old.at [31, (axes ks).getD j 0],
        ⟨src (ks.set j .vir), ks.set j .vir, (axes ks).set j 31⟩]⟩]
    | _, _ => []⟩

/-- Orbital kinds. -/
def orbs : List Kind := [.occ, .vir]

/-- Blocks of a matrix. -/
def blocks2 : List (List Kind) := orbs.flatMap fun p => orbs.map fun q => [p, q]

/-- Blocks of the couplings. -/
def blocks3 : List (List Kind) := blocks2.map fun ks => .mode :: ks

/-- Blocks of the integrals. -/
def blocks4 : List (List Kind) := blocks2.flatMap fun ks => blocks2.map fun ls => ks ++ ls

/-- Name of a block at a stage. -/
def nm (k : Nat) (ks : List Kind) : Nat := k + code ks

/-- Mean field of the singles. -/
def fieldDef (ks : List Kind) : Def :=
  ⟨nm 160 ks, [⟨⟨1, 0⟩, axes ks, [⟨0, ks, axes ks⟩]⟩,
    ⟨⟨1, 0⟩, axes ks, [T1old.at [31, 30],
      ⟨1, [ks.getD 0 .occ, .occ, ks.getD 1 .occ, .vir], [(axes ks).getD 0 0, 30,
        (axes ks).getD 1 0, 31]⟩]⟩]⟩

/-- Mean field of the singles on the modes. -/
def modeDef : Def := ⟨48, [⟨⟨1, 0⟩, [2], [⟨13, [.mode], [2]⟩]⟩,
  ⟨⟨1, 0⟩, [2], [T1old.at [31, 30], ⟨2, [.mode, .occ, .vir], [2, 30, 31]⟩]⟩]⟩

/-- The transformed inputs as a program. -/
def dressP : List Def :=
  blocks4.map (stageDef 3 false (fun _ => 1) (nm 100)) ++
  (blocks4.map (stageDef 2 false (nm 100) (nm 120)) ++
  (blocks4.map (stageDef 1 true (nm 120) (nm 140)) ++
  (blocks4.map (stageDef 0 true (nm 140) (nm 32)) ++
  (blocks2.map fieldDef ++
  (blocks2.map (stageDef 1 false (nm 160) (nm 170)) ++
  (blocks2.map (stageDef 0 true (nm 170) (nm 20)) ++
  (blocks3.map (stageDef 2 false (fun _ => 2) (nm 180)) ++
  (blocks3.map (stageDef 1 true (nm 180) (nm 24)) ++
  [modeDef, ⟨49, []⟩]))))))))

/-- Names of the blocks of the transformed inputs. -/
def dressBl (r : Nat) (ks : List Kind) : Nat :=
  match r with
  | 0 => nm 20 ks
  | 1 => nm 32 ks
  | 2 => nm 24 ks
  | 13 => 48
  | 5 => 49
  | r => r

section

variable {R O V X : Type*} [CommRing R] [Algebra ℚ R] [Fintype O] [Fintype V] [Fintype X]
  {ten : Tens R O V X} {T1 : V → O → R}

theorem sumOver_30 (f : Idx O V X → R) : sumOver 30 f = ∑ i : O, f (.o i) := rfl

theorem sumOver_31 (f : Idx O V X → R) : sumOver 31 f = ∑ a : V, f (.v a) := rfl

theorem stage4_3 {f : O ⊕ V → O ⊕ V → O ⊕ V → O ⊕ V → R} {src dst : List Kind → Nat}
    (hT : ∀ a i, ten 5 [.v a, .o i] = T1 a i)
    (h : ∀ p q r s, ten (src [knd p, knd q, knd r, knd s]) [pos p, pos q, pos r, pos s] = f p q r s)
    (p q r s : O ⊕ V) :
    evalAt ten (stageDef 3 false src dst [knd p, knd q, knd r, knd s]).terms
      [pos p, pos q, pos r, pos s] = dressR T1 (fun s => f p q r s) s := by
  simp only [Sum.forall, knd, pos] at h
  rcases p with p | p <;> rcases q with q | q <;> rcases r with r | r <;> rcases s with s | s <;>
    simp [knd, stageDef, Def.terms, evalAt, pos, qedcc_eval, axes, Kind.num, T1old, Tensor.at,
      sumOver_30, sumOver_31, h, hT, dressR, sub_eq_add_neg]

theorem stage4_2 {f : O ⊕ V → O ⊕ V → O ⊕ V → O ⊕ V → R} {src dst : List Kind → Nat}
    (hT : ∀ a i, ten 5 [.v a, .o i] = T1 a i)
    (h : ∀ p q r s, ten (src [knd p, knd q, knd r, knd s]) [pos p, pos q, pos r, pos s] = f p q r s)
    (p q r s : O ⊕ V) :
    evalAt ten (stageDef 2 false src dst [knd p, knd q, knd r, knd s]).terms
      [pos p, pos q, pos r, pos s] = dressR T1 (fun r => f p q r s) r := by
  simp only [Sum.forall, knd, pos] at h
  rcases p with p | p <;> rcases q with q | q <;> rcases r with r | r <;> rcases s with s | s <;>
    simp [knd, stageDef, Def.terms, evalAt, pos, qedcc_eval, axes, Kind.num, T1old, Tensor.at,
      sumOver_30, sumOver_31, h, hT, dressR, sub_eq_add_neg]

theorem stage4_1 {f : O ⊕ V → O ⊕ V → O ⊕ V → O ⊕ V → R} {src dst : List Kind → Nat}
    (hT : ∀ a i, ten 5 [.v a, .o i] = T1 a i)
    (h : ∀ p q r s, ten (src [knd p, knd q, knd r, knd s]) [pos p, pos q, pos r, pos s] = f p q r s)
    (p q r s : O ⊕ V) :
    evalAt ten (stageDef 1 true src dst [knd p, knd q, knd r, knd s]).terms
      [pos p, pos q, pos r, pos s] = dressL T1 (fun q => f p q r s) q := by
  simp only [Sum.forall, knd, pos] at h
  rcases p with p | p <;> rcases q with q | q <;> rcases r with r | r <;> rcases s with s | s <;>
    simp [knd, stageDef, Def.terms, evalAt, pos, qedcc_eval, axes, Kind.num, T1old, Tensor.at,
      sumOver_30, sumOver_31, h, hT, dressL, sub_eq_add_neg]

theorem stage4_0 {f : O ⊕ V → O ⊕ V → O ⊕ V → O ⊕ V → R} {src dst : List Kind → Nat}
    (hT : ∀ a i, ten 5 [.v a, .o i] = T1 a i)
    (h : ∀ p q r s, ten (src [knd p, knd q, knd r, knd s]) [pos p, pos q, pos r, pos s] = f p q r s)
    (p q r s : O ⊕ V) :
    evalAt ten (stageDef 0 true src dst [knd p, knd q, knd r, knd s]).terms
      [pos p, pos q, pos r, pos s] = dressL T1 (fun p => f p q r s) p := by
  simp only [Sum.forall, knd, pos] at h
  rcases p with p | p <;> rcases q with q | q <;> rcases r with r | r <;> rcases s with s | s <;>
    simp [knd, stageDef, Def.terms, evalAt, pos, qedcc_eval, axes, Kind.num, T1old, Tensor.at,
      sumOver_30, sumOver_31, h, hT, dressL, sub_eq_add_neg]

theorem stage2_1 {f : O ⊕ V → O ⊕ V → R} {src dst : List Kind → Nat}
    (hT : ∀ a i, ten 5 [.v a, .o i] = T1 a i)
    (h : ∀ p q, ten (src [knd p, knd q]) [pos p, pos q] = f p q) (p q : O ⊕ V) :
    evalAt ten (stageDef 1 false src dst [knd p, knd q]).terms [pos p, pos q]
      = dressR T1 (fun q => f p q) q := by
  simp only [Sum.forall, knd, pos] at h
  rcases p with p | p <;> rcases q with q | q <;>
    simp [knd, stageDef, Def.terms, evalAt, pos, qedcc_eval, axes, Kind.num, T1old, Tensor.at,
      sumOver_30, sumOver_31, h, hT, dressR, sub_eq_add_neg]

theorem stage2_0 {f : O ⊕ V → O ⊕ V → R} {src dst : List Kind → Nat}
    (hT : ∀ a i, ten 5 [.v a, .o i] = T1 a i)
    (h : ∀ p q, ten (src [knd p, knd q]) [pos p, pos q] = f p q) (p q : O ⊕ V) :
    evalAt ten (stageDef 0 true src dst [knd p, knd q]).terms [pos p, pos q]
      = dressL T1 (fun p => f p q) p := by
  simp only [Sum.forall, knd, pos] at h
  rcases p with p | p <;> rcases q with q | q <;>
    simp [knd, stageDef, Def.terms, evalAt, pos, qedcc_eval, axes, Kind.num, T1old, Tensor.at,
      sumOver_30, sumOver_31, h, hT, dressL, sub_eq_add_neg]

theorem stage3_2 {f : X → O ⊕ V → O ⊕ V → R} {src dst : List Kind → Nat}
    (hT : ∀ a i, ten 5 [.v a, .o i] = T1 a i)
    (h : ∀ m p q, ten (src [.mode, knd p, knd q]) [.x m, pos p, pos q] = f m p q) (m : X)
    (p q : O ⊕ V) :
    evalAt ten (stageDef 2 false src dst [.mode, knd p, knd q]).terms
      [.x m, pos p, pos q] = dressR T1 (fun q => f m p q) q := by
  simp only [Sum.forall, knd, pos] at h
  rcases p with p | p <;> rcases q with q | q <;>
    simp [knd, stageDef, Def.terms, evalAt, pos, qedcc_eval, axes, Kind.num, T1old, Tensor.at,
      sumOver_30, sumOver_31, h, hT, dressR, sub_eq_add_neg]

theorem stage3_1 {f : X → O ⊕ V → O ⊕ V → R} {src dst : List Kind → Nat}
    (hT : ∀ a i, ten 5 [.v a, .o i] = T1 a i)
    (h : ∀ m p q, ten (src [.mode, knd p, knd q]) [.x m, pos p, pos q] = f m p q) (m : X)
    (p q : O ⊕ V) :
    evalAt ten (stageDef 1 true src dst [.mode, knd p, knd q]).terms
      [.x m, pos p, pos q] = dressL T1 (fun p => f m p q) p := by
  simp only [Sum.forall, knd, pos] at h
  rcases p with p | p <;> rcases q with q | q <;>
    simp [knd, stageDef, Def.terms, evalAt, pos, qedcc_eval, axes, Kind.num, T1old, Tensor.at,
      sumOver_30, sumOver_31, h, hT, dressL, sub_eq_add_neg]

theorem field_eval {F : O ⊕ V → O ⊕ V → R} {I : O ⊕ V → O ⊕ V → O ⊕ V → O ⊕ V → R}
    (hT : ∀ a i, ten 5 [.v a, .o i] = T1 a i) (hF : ∀ p q, ten 0 [pos p, pos q] = F p q)
    (hI : ∀ p q r s, ten 1 [pos p, pos q, pos r, pos s] = I p q r s) (p q : O ⊕ V) :
    evalAt ten (fieldDef [knd p, knd q]).terms [pos p, pos q]
      = F p q + ∑ k, ∑ c, T1 c k * I p (.inl k) q (.inr c) := by
  simp only [Sum.forall, pos] at hF hI
  rcases p with p | p <;> rcases q with q | q <;>
    simp [knd, fieldDef, Def.terms, evalAt, pos, qedcc_eval, axes, Kind.num, T1old, Tensor.at,
      sumOver_30, sumOver_31, hF, hI, hT]

theorem mode_eval {g : X → O ⊕ V → O ⊕ V → R} {G : X → R}
    (hT : ∀ a i, ten 5 [.v a, .o i] = T1 a i) (hg : ∀ m p q, ten 2 [.x m, pos p, pos q] = g m p q)
    (hG : ∀ m, ten 13 [.x m] = G m) (m : X) :
    evalAt ten modeDef.terms [.x m] = G m + ∑ k, ∑ c, T1 c k * g m (.inl k) (.inr c) := by
  simp only [Sum.forall, pos] at hg
  simp [modeDef, Def.terms, evalAt, qedcc_eval, T1old, Tensor.at, sumOver_30, sumOver_31, hg, hG, hT]

theorem parallel_stages :
    parallel (blocks4.map (stageDef 3 false (fun _ => 1) (nm 100))) = true
    ∧ parallel (blocks4.map (stageDef 2 false (nm 100) (nm 120))) = true
    ∧ parallel (blocks4.map (stageDef 1 true (nm 120) (nm 140))) = true
    ∧ parallel (blocks4.map (stageDef 0 true (nm 140) (nm 32))) = true
    ∧ parallel (blocks2.map fieldDef) = true
    ∧ parallel (blocks2.map (stageDef 1 false (nm 160) (nm 170))) = true
    ∧ parallel (blocks2.map (stageDef 0 true (nm 170) (nm 20))) = true
    ∧ parallel (blocks3.map (stageDef 2 false (fun _ => 2) (nm 180))) = true
    ∧ parallel (blocks3.map (stageDef 1 true (nm 180) (nm 24))) = true := by
  decide +kernel

theorem mem_blocks4 (p q r s : O ⊕ V) : [knd p, knd q, knd r, knd s] ∈ blocks4 := by
  rcases p with p | p <;> rcases q with q | q <;> rcases r with r | r <;> rcases s with s | s <;>
    simp [knd, blocks4, blocks2, orbs]

theorem mem_blocks2 (p q : O ⊕ V) : [knd p, knd q] ∈ blocks2 := by
  rcases p with p | p <;> rcases q with q | q <;> simp [knd, blocks2, orbs]

theorem mem_blocks3 (p q : O ⊕ V) : [.mode, knd p, knd q] ∈ blocks3 := by
  rcases p with p | p <;> rcases q with q | q <;> simp [knd, blocks3, blocks2, orbs]

theorem stageDef_name (j : Nat) (left : Bool) (src dst : List Kind → Nat) (ks : List Kind) :
    (stageDef j left src dst ks).name = dst ks := rfl

end

end OpenMS.Qedcc
