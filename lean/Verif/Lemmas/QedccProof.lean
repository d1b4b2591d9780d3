/-
From a check of two tensor programs to an equation between residuals.
-/
import Verif.Lemmas.QedccMin
import Verif.Lemmas.EinsumOne

namespace OpenMS.Qedcc

open Einsum TrivSqZeroExt

set_option linter.unusedSectionVars false

/-- Tensor of the correlation energy. -/
def energyT : Tensor := ⟨15, []⟩

/-- Correlation energy as a program, for the comparison with `energy`. -/
def energyP : List Def := [set energyT [
  ein% "1" "ia,ai->" [F.ov, T1old],
  ein% "0.25" "ijab,abij->" [I.oovv, T2old],
  ein% "0.5" "ijab,ai,bj->" [I.oovv, T1old, T1old],
  ein% "1" "I,I->" [G, S1old],
  ein% "1" "Iia,Iai->" [g.ov, U11old],
  ein% "1" "Iia,ai,I->" [g.ov, T1old, S1old]]]

/-- The term of degree four of the doubles residual. -/
def quarticL : Line := ein% "1" "klcd,ci,dj,ak,bl->abij" [I.oovv, T1old, T1old, T1old, T1old]

section

variable {R O V X : Type*} [CommRing R] [Algebra ℚ R] [Fintype O] [Fintype V] [Fintype X]

/-- Values of the free letters `i a I j b J`; a later mode letter is `I`. -/
def env (i j : O) (a b : V) (m n : X) : Env O V X := fun k =>
  match k with
  | 0 => .o i
  | 1 => .v a
  | 3 => .o j
  | 4 => .v b
  | 5 => .x n
  | k => match kind k with
    | .mode => .x m
    | _ => .none

theorem env_mode (i j : O) (a b : V) (m : X) (k : Nat) (hk : kind k = .mode) :
    env i j a b m m k = .x m := by
  unfold env
  split
  all_goals first | rfl | (exact absurd hk (by decide)) | (rw [hk])

theorem Inputs.Truncated.two {t : Inputs R O V X} {n1 n2 : Nat} {u2 : Bool}
    (h : t.Truncated n1 n2 u2) : t.Truncated 2 2 u2 where
  S2 h' := absurd h' (by decide)
  U12 h' := absurd h' (by decide)
  U21 := h.U21
  U22 h' := h.U22 (h'.imp (fun h => absurd h (by decide)) id)

theorem read_result (p : List Def) (t : Inputs R O V X) (x : Tensor) (ns : List Nat)
    (e : Env O V X) : evalTerms (run p t.ten) (read x ns) e = result p t x (ns.map e) :=
  evalTerms_read _ _ _ _

variable {t : Inputs R O V X} {n1 n2 : Nat} {u2 g0 : Bool} {b : Nat} {cs : List Cert}
  {p q : List Def} {x y : Tensor} {ns ks : List Nat} {vs : List Term}

theorem eq_of_check (hs : t.Symmetric) (ht : t.Truncated n1 n2 u2)
    (hg : g0 = true → t.G = fun _ => 0)
    (h : check (sym n1 n2 u2 g0) b cs p q (read x ns) (read y ks) = true) (e : Env O V X) :
    result p t x (ns.map e) = result q t y (ks.map e) := by
  have := check_sound t.ten (ten_respects hs ht hg) h e
  rwa [read_result, read_result] at this

/-- Value of an array set by a single statement. -/
theorem result_set (x : Tensor) (ls : List Line) (t : Inputs R O V X) (ix : List (Idx O V X)) :
    result [set x ls] t x ix = (ls.map fun l => l.term.eval t.ten (Einsum.bind l.out ix)).sum := by
  simp [result, run, Def.run, Einsum.set, evalAt, Def.terms, Function.comp_def]

/-- A program does not change the arrays it does not assign to. -/
theorem run_frame {r : Nat} {p : List Def} (h : (p.all fun d => !(r == d.name)) = true)
    (ten : Tens R O V X) : run p ten r = ten r := by
  induction p generalizing ten with
  | nil => rfl
  | cons d p ih =>
    simp only [List.all_cons, Bool.and_eq_true, Bool.not_eq_true', beq_eq_false_iff_ne] at h
    rw [run, ih (by simpa using h.2)]
    funext ds
    simp [Def.run, h.1]

theorem eq_add_of_check {us : List Term} (hs : t.Symmetric) (ht : t.Truncated n1 n2 u2)
    (hg : g0 = true → t.G = fun _ => 0)
    (h : check (sym n1 n2 u2 g0) b cs p q (read x ns) (read y ks ++ us) = true) (e : Env O V X) :
    result p t x (ns.map e) = result q t y (ks.map e) + evalTerms (run q t.ten) us e := by
  have := check_sound t.ten (ten_respects hs ht hg) h e
  rwa [evalTerms_append, read_result, read_result] at this

theorem neg_of_check (hs : t.Symmetric) (ht : t.Truncated n1 n2 u2)
    (hg : g0 = true → t.G = fun _ => 0)
    (h : check (sym n1 n2 u2 g0) b cs p q (read x ns) [⟨⟨-1, 0⟩, [], [⟨y.root, ks⟩]⟩] = true)
    (e : Env O V X) : result p t x (ns.map e) = -result q t y (ks.map e) := by
  have := check_sound t.ten (ten_respects hs ht hg) h e
  rw [read_result] at this
  rw [this]
  simp [evalTerms, Term.eval, Coef.val, sumVars, prodFacs, result]

variable [DecidableEq X]

theorem first_of_check (hs : t.Symmetric) (ht : t.Truncated n1 n2 u2) (hg : t.G = fun _ => 0)
    (h : checkTo (sym n1 n2 u2 true) b cs p (read x ns) (derived rule 2 q (read y ks)) vs = true)
    (i j : O) (a b : V) (m n : X) :
    result p t x (ns.map (env i j a b m n))
      = snd (result q (t.shift m) y (ks.map (env i j a b m n)))
        + evalTerms t.ten vs (env i j a b m n) := by
  have := checkTo_sound (fst_shift t m) (shift_moves t m) (ten_respects hs ht fun _ => hg) h
    (env i j a b m n) rfl
  rwa [read_result, read_result] at this

theorem second_of_check (hs : t.Symmetric) (ht : t.Truncated n1 n2 u2) (hg : t.G = fun _ => 0)
    (h : checkTo (sym n1 n2 u2 true) b cs p (read x ns) (derived2 rule 2 5 q (read y ks)) vs
      = true) (i j : O) (a b : V) (m n : X) :
    result p t x (ns.map (env i j a b m n))
      = snd (snd (result q ((t.shift n).shift m) y (ks.map (env i j a b m n))))
        + evalTerms t.ten vs (env i j a b m n) := by
  have := checkTo_sound2 (fst_shift t n) (fst_shift (t.shift n) m) (shift_moves (t.shift n) m)
    (shift_moves t n) (ten_respects hs ht fun _ => hg) h (env i j a b m n) rfl rfl
  rwa [read_result, read_result] at this

theorem one_first_of_check (hX : Fintype.card X = 1) (hs : t.Symmetric)
    (ht : t.Truncated n1 n2 u2) (hg : t.G = fun _ => 0)
    (h : checkOne (sym n1 n2 u2 true) b 2 cs p (read x ns) (derived rule 2 q (read y ks)) vs
      = true) (i j : O) (a b : V) (m : X) :
    result p t x (ns.map (env i j a b m m))
      = snd (result q (t.shift m) y (ks.map (env i j a b m m)))
        + evalTerms t.ten vs (env i j a b m m) := by
  have := checkOne_derived hX (fst_shift t m) (shift_moves t m) (ten_respects hs ht fun _ => hg)
    rfl rfl h (env i j a b m m) (env_mode i j a b m)
  rwa [read_result, read_result] at this

theorem one_second_of_check (hX : Fintype.card X = 1) (hs : t.Symmetric)
    (ht : t.Truncated n1 n2 u2) (hg : t.G = fun _ => 0)
    (h : checkOne (sym n1 n2 u2 true) b 2 cs p (read x ns) (derived2 rule 2 2 q (read y ks)) vs
      = true) (i j : O) (a b : V) (m : X) :
    result p t x (ns.map (env i j a b m m))
      = snd (snd (result q ((t.shift m).shift m) y (ks.map (env i j a b m m))))
        + evalTerms t.ten vs (env i j a b m m) := by
  have := checkOne_derived2 hX (fst_shift t m) (fst_shift (t.shift m) m)
    (shift_moves (t.shift m) m) (shift_moves t m) (ten_respects hs ht fun _ => hg)
    rfl rfl rfl h (env i j a b m m) (env_mode i j a b m)
  rwa [read_result, read_result] at this

end

end OpenMS.Qedcc
