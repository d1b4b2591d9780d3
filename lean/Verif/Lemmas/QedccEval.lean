/-
Values of the terms of tensor programs on typed inputs.
-/
import Verif.Lemmas.QedccProof
import Verif.Lemmas.QedccAttr
import Lean

namespace OpenMS.Qedcc

open Einsum

section

variable {R O V X : Type*} [CommRing R] (t : Inputs R O V X)

@[qedcc_eval] theorem ten_F_oo (p : O) (q : O) :
    t.ten 0 [.o p, .o q] = t.F (.inl p) (.inl q) := rfl

@[qedcc_eval] theorem ten_F_ov (p : O) (q : V) :
    t.ten 0 [.o p, .v q] = t.F (.inl p) (.inr q) := rfl

@[qedcc_eval] theorem ten_F_vo (p : V) (q : O) :
    t.ten 0 [.v p, .o q] = t.F (.inr p) (.inl q) := rfl

@[qedcc_eval] theorem ten_F_vv (p : V) (q : V) :
    t.ten 0 [.v p, .v q] = t.F (.inr p) (.inr q) := rfl

@[qedcc_eval] theorem ten_I_oooo (p : O) (q : O) (r : O) (s : O) :
    t.ten 1 [.o p, .o q, .o r, .o s] = t.I (.inl p) (.inl q) (.inl r) (.inl s) := rfl

@[qedcc_eval] theorem ten_I_ooov (p : O) (q : O) (r : O) (s : V) :
    t.ten 1 [.o p, .o q, .o r, .v s] = t.I (.inl p) (.inl q) (.inl r) (.inr s) := rfl

@[qedcc_eval] theorem ten_I_oovo (p : O) (q : O) (r : V) (s : O) :
    t.ten 1 [.o p, .o q, .v r, .o s] = t.I (.inl p) (.inl q) (.inr r) (.inl s) := rfl

@[qedcc_eval] theorem ten_I_oovv (p : O) (q : O) (r : V) (s : V) :
    t.ten 1 [.o p, .o q, .v r, .v s] = t.I (.inl p) (.inl q) (.inr r) (.inr s) := rfl

@[qedcc_eval] theorem ten_I_ovoo (p : O) (q : V) (r : O) (s : O) :
    t.ten 1 [.o p, .v q, .o r, .o s] = t.I (.inl p) (.inr q) (.inl r) (.inl s) := rfl

@[qedcc_eval] theorem ten_I_ovov (p : O) (q : V) (r : O) (s : V) :
    t.ten 1 [.o p, .v q, .o r, .v s] = t.I (.inl p) (.inr q) (.inl r) (.inr s) := rfl

@[qedcc_eval] theorem ten_I_ovvo (p : O) (q : V) (r : V) (s : O) :
    t.ten 1 [.o p, .v q, .v r, .o s] = t.I (.inl p) (.inr q) (.inr r) (.inl s) := rfl

@[qedcc_eval] theorem ten_I_ovvv (p : O) (q : V) (r : V) (s : V) :
    t.ten 1 [.o p, .v q, .v r, .v s] = t.I (.inl p) (.inr q) (.inr r) (.inr s) := rfl

@[qedcc_eval] theorem ten_I_vooo (p : V) (q : O) (r : O) (s : O) :
    t.ten 1 [.v p, .o q, .o r, .o s] = t.I (.inr p) (.inl q) (.inl r) (.inl s) := rfl

@[qedcc_eval] theorem ten_I_voov (p : V) (q : O) (r : O) (s : V) :
    t.ten 1 [.v p, .o q, .o r, .v s] = t.I (.inr p) (.inl q) (.inl r) (.inr s) := rfl

@[qedcc_eval] theorem ten_I_vovo (p : V) (q : O) (r : V) (s : O) :
    t.ten 1 [.v p, .o q, .v r, .o s] = t.I (.inr p) (.inl q) (.inr r) (.inl s) := rfl

@[qedcc_eval] theorem ten_I_vovv (p : V) (q : O) (r : V) (s : V) :
    t.ten 1 [.v p, .o q, .v r, .v s] = t.I (.inr p) (.inl q) (.inr r) (.inr s) := rfl

@[qedcc_eval] theorem ten_I_vvoo (p : V) (q : V) (r : O) (s : O) :
    t.ten 1 [.v p, .v q, .o r, .o s] = t.I (.inr p) (.inr q) (.inl r) (.inl s) := rfl

@[qedcc_eval] theorem ten_I_vvov (p : V) (q : V) (r : O) (s : V) :
    t.ten 1 [.v p, .v q, .o r, .v s] = t.I (.inr p) (.inr q) (.inl r) (.inr s) := rfl

@[qedcc_eval] theorem ten_I_vvvo (p : V) (q : V) (r : V) (s : O) :
    t.ten 1 [.v p, .v q, .v r, .o s] = t.I (.inr p) (.inr q) (.inr r) (.inl s) := rfl

@[qedcc_eval] theorem ten_I_vvvv (p : V) (q : V) (r : V) (s : V) :
    t.ten 1 [.v p, .v q, .v r, .v s] = t.I (.inr p) (.inr q) (.inr r) (.inr s) := rfl

@[qedcc_eval] theorem ten_g_oo (m : X) (p : O) (q : O) :
    t.ten 2 [.x m, .o p, .o q] = t.g m (.inl p) (.inl q) := rfl

@[qedcc_eval] theorem ten_g_ov (m : X) (p : O) (q : V) :
    t.ten 2 [.x m, .o p, .v q] = t.g m (.inl p) (.inr q) := rfl

@[qedcc_eval] theorem ten_g_vo (m : X) (p : V) (q : O) :
    t.ten 2 [.x m, .v p, .o q] = t.g m (.inr p) (.inl q) := rfl

@[qedcc_eval] theorem ten_g_vv (m : X) (p : V) (q : V) :
    t.ten 2 [.x m, .v p, .v q] = t.g m (.inr p) (.inr q) := rfl

@[qedcc_eval] theorem ten_w (m : X) :
    t.ten 4 [.x m] = t.w m := rfl

@[qedcc_eval] theorem ten_T1 (p : V) (q : O) :
    t.ten 5 [.v p, .o q] = t.T1 p q := rfl

@[qedcc_eval] theorem ten_T2 (p : V) (q : V) (r : O) (s : O) :
    t.ten 6 [.v p, .v q, .o r, .o s] = t.T2 p q r s := rfl

@[qedcc_eval] theorem ten_S1 (m : X) :
    t.ten 7 [.x m] = t.S1 m := rfl

@[qedcc_eval] theorem ten_S2 (m : X) (n : X) :
    t.ten 8 [.x m, .x n] = t.S2 m n := rfl

@[qedcc_eval] theorem ten_U11 (m : X) (p : V) (q : O) :
    t.ten 9 [.x m, .v p, .o q] = t.U11 m p q := rfl

@[qedcc_eval] theorem ten_U12 (m : X) (n : X) (p : V) (q : O) :
    t.ten 10 [.x m, .x n, .v p, .o q] = t.U12 m n p q := rfl

@[qedcc_eval] theorem ten_U21 (m : X) (p : V) (q : V) (r : O) (s : O) :
    t.ten 11 [.x m, .v p, .v q, .o r, .o s] = t.U21 m p q r s := rfl

@[qedcc_eval] theorem ten_U22 (m : X) (n : X) (p : V) (q : V) (r : O) (s : O) :
    t.ten 12 [.x m, .x n, .v p, .v q, .o r, .o s] = t.U22 m n p q r s := rfl

@[qedcc_eval] theorem ten_G (m : X) :
    t.ten 13 [.x m] = t.G m := rfl

end

section

variable {R O V X : Type*} [CommRing R] [Fintype O] [Fintype V] [Fintype X]

theorem sumOver_occ (n : Nat) (h : kind n = .occ) (f : Idx O V X → R) :
    sumOver n f = ∑ i, f (.o i) := by
  unfold sumOver
  rw [h]

theorem sumOver_vir (n : Nat) (h : kind n = .vir) (f : Idx O V X → R) :
    sumOver n f = ∑ a, f (.v a) := by
  unfold sumOver
  rw [h]

theorem sumOver_mode (n : Nat) (h : kind n = .mode) (f : Idx O V X → R) :
    sumOver n f = ∑ m, f (.x m) := by
  unfold sumOver
  rw [h]

@[qedcc_eval] theorem sumOver_0 (f : Idx O V X → R) : sumOver 0 f = ∑ i : O, f (.o i) := rfl

@[qedcc_eval] theorem sumOver_1 (f : Idx O V X → R) : sumOver 1 f = ∑ i : V, f (.v i) := rfl

@[qedcc_eval] theorem sumOver_2 (f : Idx O V X → R) : sumOver 2 f = ∑ i : X, f (.x i) := rfl

@[qedcc_eval] theorem sumOver_3 (f : Idx O V X → R) : sumOver 3 f = ∑ i : O, f (.o i) := rfl

@[qedcc_eval] theorem sumOver_4 (f : Idx O V X → R) : sumOver 4 f = ∑ i : V, f (.v i) := rfl

@[qedcc_eval] theorem sumOver_5 (f : Idx O V X → R) : sumOver 5 f = ∑ i : X, f (.x i) := rfl

@[qedcc_eval] theorem sumOver_6 (f : Idx O V X → R) : sumOver 6 f = ∑ i : O, f (.o i) := rfl

@[qedcc_eval] theorem sumOver_7 (f : Idx O V X → R) : sumOver 7 f = ∑ i : V, f (.v i) := rfl

@[qedcc_eval] theorem sumOver_8 (f : Idx O V X → R) : sumOver 8 f = ∑ i : X, f (.x i) := rfl

@[qedcc_eval] theorem sumOver_9 (f : Idx O V X → R) : sumOver 9 f = ∑ i : O, f (.o i) := rfl

@[qedcc_eval] theorem sumOver_10 (f : Idx O V X → R) : sumOver 10 f = ∑ i : V, f (.v i) := rfl

@[qedcc_eval] theorem sumOver_11 (f : Idx O V X → R) : sumOver 11 f = ∑ i : X, f (.x i) := rfl

@[qedcc_eval] theorem sumOver_12 (f : Idx O V X → R) : sumOver 12 f = ∑ i : O, f (.o i) := rfl

@[qedcc_eval] theorem sumOver_13 (f : Idx O V X → R) : sumOver 13 f = ∑ i : V, f (.v i) := rfl

@[qedcc_eval] theorem sumOver_14 (f : Idx O V X → R) : sumOver 14 f = ∑ i : X, f (.x i) := rfl

@[qedcc_eval] theorem sumOver_15 (f : Idx O V X → R) : sumOver 15 f = ∑ i : O, f (.o i) := rfl

@[qedcc_eval] theorem sumOver_16 (f : Idx O V X → R) : sumOver 16 f = ∑ i : V, f (.v i) := rfl

@[qedcc_eval] theorem sumOver_17 (f : Idx O V X → R) : sumOver 17 f = ∑ i : X, f (.x i) := rfl

end

attribute [qedcc_eval] F.oo F.ov F.vo F.vv I.oooo I.ooov I.oovo I.oovv
  I.ovoo I.ovov I.ovvo I.ovvv I.vooo I.voov I.vovo I.vovv
  I.vvoo I.vvov I.vvvo I.vvvv g.oo g.ov g.vo g.vv
  h.oo h.ov h.vo h.vv w T1old T2old S1old
  S2old U11old U12old U21old U22old G

theorem evalTerms_cons {R O V X : Type*} [CommRing R] [Algebra ℚ R] [Fintype O] [Fintype V]
    [Fintype X] (ten : Tens R O V X) (t : Term) (ts : List Term) (e : Env O V X) :
    evalTerms ten (t :: ts) e = t.eval ten e + evalTerms ten ts e := by
  simp [evalTerms]

theorem run_append {R O V X : Type*} [CommRing R] [Algebra ℚ R] [Fintype O] [Fintype V]
    [Fintype X] (p q : List Def) (ten : Tens R O V X) : run (p ++ q) ten = run q (run p ten) := by
  induction p generalizing ten with
  | nil => rfl
  | cons d p ih => exact ih _

theorem run_single {R O V X : Type*} [CommRing R] [Algebra ℚ R] [Fintype O] [Fintype V]
    [Fintype X] (d : Def) (ten : Tens R O V X) : run [d] ten d.name = evalAt ten d.terms := by
  funext ds
  simp [run, Def.run]

open Lean Meta in
/-- Letters summed over, computed. -/
dsimproc [qedcc_eval] reduceDummies (dummies _ _) := fun e => do
  return .done (← withDefault <| Meta.reduce e)

attribute [qedcc_eval] uniq Term.eval Line.term sumVars prodFacs Tensor.at evalTerms
  Einsum.bind Function.update_apply Coef.val List.map_cons List.map_nil List.sum_cons List.sum_nil
  List.prod_cons List.prod_nil

end OpenMS.Qedcc
