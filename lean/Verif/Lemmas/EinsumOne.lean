/-
Tensor programs with a single mode: every letter of a mode is the same, and sums
over modes can be left out.
-/
import Verif.Lemmas.EinsumDerive

namespace OpenMS.Einsum

set_option linter.unusedSectionVars false

/-- Is the letter one of a mode? -/
def isMode (n : Nat) : Bool := Nat.beq (n % 3) 2

/-- A term with all letters of modes replaced by `z`. -/
def Term.one (z : Nat) (t : Term) : Term :=
  ⟨t.coef, t.dum.filter fun n => !isMode n, renFacs (fun n => bif isMode n then z else n) t.facs⟩

/-- `ts` on program `p` are the terms `ds` and `vs` of the input arrays if there is
one mode. -/
def checkOne (sym : Nat → List Sym) (b z : Nat) (cs : List Cert) (p : List Def) (ts : List Term)
    (ds : Option (List Term)) (vs : List Term) : Bool :=
  match expandOk p ts, ds with
  | some us, some ds => check sym b cs [] [] (us.map (Term.one z)) ((ds ++ vs).map (Term.one z))
  | _, _ => false

theorem isMode_iff (n : Nat) : isMode n = true ↔ kind n = .mode := by
  unfold isMode kind
  rw [Nat.beq_eq]
  have h := Nat.mod_lt n (show 0 < 3 by norm_num)
  generalize n % 3 = k at h ⊢
  interval_cases k <;> simp

section

variable {R O V X : Type*} [CommRing R] [Algebra ℚ R] [Fintype O] [Fintype V] [Fintype X]

theorem one_eval (hX : Fintype.card X = 1) (ten : Tens R O V X) (z : Nat) (hz : isMode z = true)
    (t : Term) (m : X) (e : Env O V X) (he : ∀ n, kind n = .mode → e n = .x m) :
    (t.one z).eval ten e = t.eval ten e := by
  have hm : ∀ k : X, k = m := fun k => by
    obtain ⟨x, hx⟩ := Fintype.card_eq_one_iff.1 hX
    rw [hx k, hx m]
  unfold Term.eval Term.one
  simp only
  congr 1
  generalize t.dum = ns
  induction ns generalizing e with
  | nil =>
    simp only [List.filter_nil, sumVars]
    rw [prodFacs_ren]
    congr 1
    funext n
    cases h : isMode n
    · rfl
    · simp only [cond_true]
      rw [he n ((isMode_iff n).1 h), he z ((isMode_iff z).1 hz)]
  | cons n ns ih =>
    cases h : isMode n
    · rw [List.filter_cons_of_pos (by simp [h])]
      refine sumOver_congr fun d => ih _ fun k hk => ?_
      rw [Function.update_of_ne, he k hk]
      rintro rfl
      rw [(isMode_iff _).2 hk] at h
      simp at h
    · rw [List.filter_cons_of_neg (by simp [h])]
      have hk := (isMode_iff n).1 h
      simp only [sumVars]
      unfold sumOver
      rw [hk]
      simp only
      have h1 : ∀ k : X, Function.update e n (.x k) = e := fun k => by
        rw [hm k, ← he n hk, Function.update_eq_self]
      simp only [h1, Finset.sum_const, Finset.card_univ, hX, one_smul]
      exact ih e he

theorem one_evalTerms (hX : Fintype.card X = 1) (ten : Tens R O V X) (z : Nat)
    (hz : isMode z = true) (ts : List Term) (m : X) (e : Env O V X)
    (he : ∀ n, kind n = .mode → e n = .x m) :
    evalTerms ten (ts.map (Term.one z)) e = evalTerms ten ts e := by
  unfold evalTerms
  rw [List.map_map]
  congr 1
  exact List.map_congr_left fun t _ => one_eval hX ten z hz t m e he

open TrivSqZeroExt

/-- Equality with one mode, verified by computation. -/
theorem checkOne_sound (hX : Fintype.card X = 1) {ten : Tens R O V X} {sym : Nat → List Sym}
    (hs : Respects sym ten) {b z : Nat} (hz : isMode z = true) {cs : List Cert} {p : List Def}
    {ts ds vs : List Term} (h : checkOne sym b z cs p ts (some ds) vs = true) (m : X)
    (e : Env O V X) (he : ∀ n, kind n = .mode → e n = .x m) :
    evalTerms (run p ten) ts e = evalTerms ten ds e + evalTerms ten vs e := by
  unfold checkOne at h
  split at h
  · rename_i us ds' h1 h2
    simp only [Option.some.injEq] at h2
    subst h2
    have h3 := check_sound ten hs h e
    simp only [run] at h3
    rw [one_evalTerms hX ten z hz _ m e he, one_evalTerms hX ten z hz _ m e he,
      evalTerms_append] at h3
    rw [expand_sound p ten ts e h1, h3]
  · simp at h

/-- A first derivative with one mode. -/
theorem checkOne_derived {rule : Nat → Rule} (hX : Fintype.card X = 1) {m : X} {ten : Tens R O V X}
    {ten' : Tens (DualNumber R) O V X} (hf : (fun r ix => fst (ten' r ix)) = ten)
    (hm : Moves rule m ten') {sym : Nat → List Sym} (hs : Respects sym ten) {b z : Nat}
    (hz : isMode z = true) {cs : List Cert} {p q : List Def} {x : Nat} (hx : kind x = .mode)
    {ts us vs : List Term}
    (h : checkOne sym b z cs p ts (derived rule x q us) vs = true) (e : Env O V X)
    (he : ∀ n, kind n = .mode → e n = .x m) :
    evalTerms (run p ten) ts e
      = snd (evalTerms (run q ten') us e) + evalTerms ten vs e := by
  cases hd : derived rule x q us with
  | none => rw [hd] at h; unfold checkOne at h; split at h <;> simp_all
  | some ds =>
    rw [hd] at h
    rw [checkOne_sound hX hs hz h m e he]
    congr 1
    unfold derived at hd
    split at hd
    · simp at hd
    rename_i ws hw
    rw [expand_sound q ten' us e hw, derive_sound hm hd e (he x hx), hf]

/-- A second derivative with one mode. -/
theorem checkOne_derived2 {rule : Nat → Rule} (hX : Fintype.card X = 1) {m : X}
    {ten : Tens R O V X} {ten' : Tens (DualNumber R) O V X}
    {ten'' : Tens (DualNumber (DualNumber R)) O V X} (hf : (fun r ix => fst (ten' r ix)) = ten)
    (hf' : (fun r ix => fst (ten'' r ix)) = ten') (hm' : Moves rule m ten'')
    (hm : Moves rule m ten') {sym : Nat → List Sym} (hs : Respects sym ten) {b z : Nat}
    (hz : isMode z = true) {cs : List Cert} {p q : List Def} {x y : Nat} (hx : kind x = .mode)
    (hy : kind y = .mode) {ts us vs : List Term}
    (h : checkOne sym b z cs p ts (derived2 rule x y q us) vs = true) (e : Env O V X)
    (he : ∀ n, kind n = .mode → e n = .x m) :
    evalTerms (run p ten) ts e
      = snd (snd (evalTerms (run q ten'') us e)) + evalTerms ten vs e := by
  cases hd : derived2 rule x y q us with
  | none => rw [hd] at h; unfold checkOne at h; split at h <;> simp_all
  | some ds =>
    rw [hd] at h
    rw [checkOne_sound hX hs hz h m e he]
    congr 1
    unfold derived2 derived at hd
    split at hd
    · simp at hd
    rename_i zs hzs
    split at hzs
    · simp at hzs
    rename_i ws hw
    rw [expand_sound q ten'' us e hw, derive_sound hm' hzs e (he x hx), hf',
      derive_sound hm hd e (he y hy), hf]

end

end OpenMS.Einsum
