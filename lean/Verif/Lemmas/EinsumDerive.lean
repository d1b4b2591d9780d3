/-
Derivatives of tensor programs.  A sum of products evaluated on tensors over the
dual numbers `R[ε]` has the part without `ε` of the products of the parts without
`ε`, and its part with `ε` is given by the product rule.  `derive` is this rule on
the level of terms: a factor is replaced by its derivatives, which are tensors with
one more mode axis, and by a Kronecker delta on a mode axis, which removes a sum.
-/
import Verif.Lemmas.Einsum
import Mathlib.Algebra.DualNumber

namespace OpenMS.Einsum

set_option linter.unusedSectionVars false

/-- Derivatives of a tensor: tensors with a mode axis in front, and whether a
Kronecker delta is added. -/
structure Rule where
  roots : List Nat
  del : Bool

/-- Every factor with the remaining ones. -/
def picks : List Fac → List (Fac × List Fac)
  | [] => []
  | f :: fs => (f, fs) :: (picks fs).map fun p => (p.1, f :: p.2)

/-- Results of `f` on a list, `none` if one of them is. -/
def gather {α β : Type*} (f : α → Option (List β)) : List α → Option (List β)
  | [] => some []
  | a :: as =>
    match f a, gather f as with
    | some l, some m => some (l ++ m)
    | _, _ => none

/-- Letter `j` replaced by `x`. -/
def subst (j x n : Nat) : Nat := if n == j then x else n

/-- Terms obtained from `t` by differentiating the factor `p.1`. -/
def deriveFac (rule : Nat → Rule) (x : Nat) (t : Term) (p : Fac × List Fac) :
    Option (List Term) :=
  let a := (rule p.1.root).roots.map fun r => (⟨t.coef, t.dum, ⟨r, x :: p.1.idx⟩ :: p.2⟩ : Term)
  match (rule p.1.root).del, p.1.idx with
  | false, _ => some a
  | true, [j] =>
    match kind j == .mode && t.dum.contains j && !(t.dum.erase j).contains j && !(j == x) with
    | true => some (⟨t.coef, t.dum.erase j, renFacs (subst j x) p.2⟩ :: a)
    | false => none
  | true, _ => none

/-- Derivative of a term along mode letter `x`. -/
def deriveTerm (rule : Nat → Rule) (x : Nat) (t : Term) : Option (List Term) :=
  match t.dum.contains x with
  | true => none
  | false => gather (deriveFac rule x t) (picks t.facs)

/-- Derivative of a sum of terms. -/
def derive (rule : Nat → Rule) (x : Nat) : List Term → Option (List Term) :=
  gather (deriveTerm rule x)

/-- Derivative along `x` of the terms `ts` on program `q`. -/
def derived (rule : Nat → Rule) (x : Nat) (q : List Def) (ts : List Term) : Option (List Term) :=
  match expandOk q ts with
  | none => none
  | some us => derive rule x us

/-- Second derivative along `x` and `y`. -/
def derived2 (rule : Nat → Rule) (x y : Nat) (q : List Def) (ts : List Term) :
    Option (List Term) :=
  match derived rule x q ts with
  | none => none
  | some us => derive rule y us

/-- `ts` on program `p` are the terms `ds` and `vs` of the input arrays. -/
def checkTo (sym : Nat → List Sym) (b : Nat) (cs : List Cert) (p : List Def) (ts : List Term)
    (ds : Option (List Term)) (vs : List Term) : Bool :=
  match ds with
  | none => false
  | some ds => check sym b cs p [] ts (ds ++ vs)

section

variable {R O V X : Type*} [CommRing R] [Algebra ℚ R] [Fintype O] [Fintype V] [Fintype X]

open TrivSqZeroExt

theorem fst_sumOver (n : Nat) (f : Idx O V X → DualNumber R) :
    fst (sumOver n f) = sumOver n fun d => fst (f d) := by
  unfold sumOver
  cases kind n <;> exact map_sum (fstHom R R R) _ _

theorem snd_sumOver (n : Nat) (f : Idx O V X → DualNumber R) :
    snd (sumOver n f) = sumOver n fun d => snd (f d) := by
  unfold sumOver
  cases kind n <;> exact map_sum (sndHom R R) _ _

theorem fst_sumVars (ns : List Nat) (f : Env O V X → DualNumber R) (e : Env O V X) :
    fst (sumVars ns f e) = sumVars ns (fun e => fst (f e)) e := by
  induction ns generalizing e with
  | nil => rfl
  | cons n ns ih =>
    simp only [sumVars]
    rw [fst_sumOver]
    exact sumOver_congr fun d => ih _

theorem snd_sumVars (ns : List Nat) (f : Env O V X → DualNumber R) (e : Env O V X) :
    snd (sumVars ns f e) = sumVars ns (fun e => snd (f e)) e := by
  induction ns generalizing e with
  | nil => rfl
  | cons n ns ih =>
    simp only [sumVars]
    rw [snd_sumOver]
    exact sumOver_congr fun d => ih _

theorem fst_prodFacs (ten : Tens (DualNumber R) O V X) (fs : List Fac) (e : Env O V X) :
    fst (prodFacs ten fs e) = prodFacs (fun r ix => fst (ten r ix)) fs e := by
  induction fs with
  | nil => simp [prodFacs]
  | cons f fs ih => rw [prodFacs_cons, prodFacs_cons, fst_mul, ih]

theorem fst_evalTerms (ten : Tens (DualNumber R) O V X) (ts : List Term) (e : Env O V X) :
    fst (evalTerms ten ts e) = evalTerms (fun r ix => fst (ten r ix)) ts e := by
  induction ts with
  | nil => simp [evalTerms]
  | cons t ts ih =>
    simp only [evalTerms, List.map_cons, List.sum_cons] at ih ⊢
    rw [fst_add, ih]
    congr 1
    simp only [Term.eval]
    rw [fst_mul, fst_sumVars, algebraMap_eq_inl', fst_inl]
    congr 1
    exact sumVars_congr (fun e => fst_prodFacs ten _ e) e

/-- Product rule. -/
theorem snd_prodFacs (ten : Tens (DualNumber R) O V X) (fs : List Fac) (e : Env O V X) :
    snd (prodFacs ten fs e)
      = ((picks fs).map fun p => snd (ten p.1.root (p.1.idx.map e))
          * prodFacs (fun r ix => fst (ten r ix)) p.2 e).sum := by
  induction fs with
  | nil => simp [prodFacs, picks]
  | cons f fs ih =>
    rw [prodFacs_cons, snd_mul, ih, fst_prodFacs]
    simp only [picks, List.map_cons, List.sum_cons, List.map_map, Function.comp_def, prodFacs_cons,
      smul_eq_mul, MulOpposite.smul_eq_mul_unop, MulOpposite.unop_op]
    rw [add_comm]
    congr 1
    rw [← List.sum_map_mul_left]
    congr 1
    refine List.map_congr_left fun p _ => ?_
    ring

theorem sumVars_list {α : Type*} (ns : List Nat) (l : List α) (f : α → Env O V X → R)
    (e : Env O V X) :
    sumVars ns (fun e => (l.map fun a => f a e).sum) e = (l.map fun a => sumVars ns (f a) e).sum := by
  induction l with
  | nil => simpa using sumVars_zero ns e
  | cons a l ih =>
    simp only [List.map_cons, List.sum_cons]
    rw [sumVars_add, ih]

/-- A sum over the letter of a Kronecker delta. -/
theorem sumVars_delta {ns : List Nat} {j x : Nat} (hj : kind j = .mode) (hx : x ∉ ns)
    (hjn : j ∈ ns) (h1 : j ∉ ns.erase j) (hjx : j ≠ x) {m : X} {del : Idx O V X → R}
    (hd : ∀ f : X → R, ∑ k, del (.x k) * f k = f m) (fs : List Fac) (ten : Tens R O V X)
    (e : Env O V X) (he : e x = .x m) :
    sumVars ns (fun e => del (e j) * prodFacs ten fs e) e
      = sumVars (ns.erase j) (prodFacs ten (renFacs (subst j x) fs)) e := by
  induction ns generalizing e with
  | nil => simp at hjn
  | cons n ns ih =>
    have hxn : x ≠ n := fun h => hx (h ▸ List.mem_cons_self ..)
    have hxs : x ∉ ns := fun h => hx (List.mem_cons_of_mem _ h)
    by_cases hnj : n = j
    · subst hnj
      rw [List.erase_cons_head] at h1 ⊢
      simp only [sumVars]
      have ho : Only [n] (fun e : Env O V X => del (e n)) := by
        intro e e' h
        simp [h n (by simp)]
      have h2 : ∀ d, sumVars ns (fun e => del (e n) * prodFacs ten fs e) (Function.update e n d)
          = del d * sumVars ns (prodFacs ten fs) (Function.update e n d) := by
        intro d
        have := sumVars_out (f := fun e : Env O V X => del (e n)) ho
          (fun k hk => by simp; rintro rfl; exact h1 hk) (prodFacs ten fs) (Function.update e n d)
        simpa using this
      rw [sumOver_congr h2]
      unfold sumOver
      rw [hj]
      simp only
      rw [hd fun k => sumVars ns (prodFacs ten fs) (Function.update e n (.x k))]
      have : ∀ (ns : List Nat) (e : Env O V X), x ∉ ns → n ∉ ns → e x = .x m →
          sumVars ns (prodFacs ten fs) (Function.update e n (.x m))
            = sumVars ns (prodFacs ten (renFacs (subst n x) fs)) e := by
        intro ns
        induction ns with
        | nil =>
          intro e _ _ he
          simp only [sumVars]
          rw [prodFacs_ren]
          congr 1
          funext k
          unfold subst
          by_cases hk : k = n
          · subst hk; simp [he]
          · simp [hk]
        | cons k ns ih =>
          intro e h1 h2 he
          simp only [sumVars]
          refine sumOver_congr fun d => ?_
          have hkn : n ≠ k := fun h => h2 (h ▸ List.mem_cons_self ..)
          have hkx : x ≠ k := fun h => h1 (h ▸ List.mem_cons_self ..)
          rw [Function.update_comm hkn]
          refine ih _ (fun h => h1 (List.mem_cons_of_mem _ h))
            (fun h => h2 (List.mem_cons_of_mem _ h)) ?_
          rw [Function.update_of_ne hkx, he]
      exact this ns e hxs h1 he
    · rw [List.erase_cons_tail (by simp [hnj])] at h1 ⊢
      simp only [sumVars]
      refine sumOver_congr fun d => ?_
      refine ih hxs ?_ ?_ _ ?_
      · rcases List.mem_cons.1 hjn with h | h
        · exact absurd h.symm hnj
        · exact h
      · exact fun h => h1 (List.mem_cons_of_mem _ h)
      · rw [Function.update_of_ne hxn, he]

/-- `ten` changes by `ε` times its derivative along mode `m`. -/
structure Moves (rule : Nat → Rule) (m : X) (ten : Tens (DualNumber R) O V X) : Prop where
  out : ∃ del : Idx O V X → R, (∀ f : X → R, ∑ k, del (.x k) * f k = f m) ∧
    ∀ r, ∀ ix : List (Idx O V X), snd (ten r ix)
      = ((rule r).roots.map fun s => fst (ten s (.x m :: ix))).sum
        + (match (rule r).del, ix with
          | true, [d] => del d
          | _, _ => 0)

theorem gather_some {α β : Type*} {f : α → Option (List β)} : ∀ {as : List α} {bs : List β},
    gather f as = some bs → ∀ (g : α → R) (h : β → R),
      (∀ a ∈ as, ∀ l, f a = some l → g a = (l.map h).sum) → (as.map g).sum = (bs.map h).sum
  | [], bs, hb, g, h, _ => by
    simp only [gather, Option.some.injEq] at hb
    subst hb
    rfl
  | a :: as, bs, hb, g, h, hf => by
    unfold gather at hb
    split at hb
    · rename_i l m h1 h2
      simp only [Option.some.injEq] at hb
      subst hb
      rw [List.map_cons, List.sum_cons, List.map_append, List.sum_append,
        hf a (List.mem_cons_self ..) l h1,
        gather_some h2 g h fun a ha => hf a (List.mem_cons_of_mem _ ha)]
    · simp at hb

theorem deriveTerm_sound {rule : Nat → Rule} {m : X} {ten : Tens (DualNumber R) O V X}
    (hm : Moves rule m ten) {x : Nat} {t : Term} {us : List Term}
    (h : deriveTerm rule x t = some us) (e : Env O V X) (he : e x = .x m) :
    snd (t.eval ten e) = evalTerms (fun r ix => fst (ten r ix)) us e := by
  obtain ⟨del, hd, hr⟩ := hm.out
  unfold deriveTerm at h
  split at h
  · simp at h
  rename_i hx
  have hx' : x ∉ t.dum := by simpa using hx
  have h0 : snd (t.eval ten e) = algebraMap ℚ R t.coef.val
      * sumVars t.dum (fun e => snd (prodFacs ten t.facs e)) e := by
    simp only [Term.eval]
    rw [snd_mul, algebraMap_eq_inl', fst_inl, snd_inl, snd_sumVars]
    simp
  rw [h0, sumVars_congr (fun e => snd_prodFacs ten t.facs e), sumVars_list, ← List.sum_map_mul_left,
    evalTerms]
  refine gather_some h _ _ fun p _ l hl => ?_
  have hsum : sumVars t.dum (fun e => snd (ten p.1.root (p.1.idx.map e))
        * prodFacs (fun r ix => fst (ten r ix)) p.2 e) e
      = ((rule p.1.root).roots.map fun r => sumVars t.dum
          (prodFacs (fun r ix => fst (ten r ix)) (⟨r, x :: p.1.idx⟩ :: p.2)) e).sum
        + sumVars t.dum (fun e => (match (rule p.1.root).del, p.1.idx.map e with
          | true, [d] => del d
          | _, _ => 0) * prodFacs (fun r ix => fst (ten r ix)) p.2 e) e := by
    have step : ∀ (ns : List Nat) (e : Env O V X), x ∉ ns → e x = .x m →
        ∀ f g : Env O V X → R, (∀ e, e x = .x m → f e = g e) → sumVars ns f e = sumVars ns g e := by
      intro ns
      induction ns with
      | nil => intro e _ he f g hfg; exact hfg e he
      | cons n ns ih =>
        intro e hn he f g hfg
        refine sumOver_congr fun d => ih _ (fun h => hn (List.mem_cons_of_mem _ h)) ?_ f g hfg
        have hxn : x ≠ n := fun h => hn (h ▸ List.mem_cons_self ..)
        rw [Function.update_of_ne hxn, he]
    rw [← sumVars_list, ← sumVars_add]
    refine step _ _ hx' he _ _ fun e he => ?_
    rw [hr, add_mul]
    congr 1
    rw [← List.sum_map_mul_right]
    congr 1
    refine List.map_congr_left fun r _ => ?_
    rw [prodFacs_cons, List.map_cons, he]
  rw [hsum, mul_add]
  unfold deriveFac at hl
  simp only at hl
  split at hl
  · rename_i hdel
    simp only [Option.some.injEq] at hl
    subst hl
    simp only [hdel, zero_mul]
    rw [sumVars_zero, mul_zero, add_zero, ← List.sum_map_mul_left, List.map_map]
    rfl
  · rename_i j hdel hidx
    split at hl
    · rename_i hc
      simp only [Bool.and_eq_true, beq_iff_eq, Bool.not_eq_true', List.contains_eq_mem,
        decide_eq_true_eq, decide_eq_false_iff_not] at hc
      obtain ⟨⟨⟨hk, hjm⟩, hje⟩, hjx⟩ := hc
      simp only [Option.some.injEq] at hl
      subst hl
      simp only [hdel, hidx, List.map_cons, List.map_nil, List.sum_cons, List.map_map]
      rw [sumVars_delta hk hx' hjm hje (by simpa using hjx) hd _ _ e he, add_comm]
      congr 1
      rw [← List.sum_map_mul_left]
      rfl
    · simp at hl
  · simp at hl

/-- The part with `ε` of a sum of terms is the value of the derived terms. -/
theorem derive_sound {rule : Nat → Rule} {m : X} {ten : Tens (DualNumber R) O V X}
    (hm : Moves rule m ten) {x : Nat} {ts us : List Term} (h : derive rule x ts = some us)
    (e : Env O V X) (he : e x = .x m) :
    snd (evalTerms ten ts e) = evalTerms (fun r ix => fst (ten r ix)) us e := by
  have h1 : snd (evalTerms ten ts e) = (ts.map fun t => snd (t.eval ten e)).sum := by
    unfold evalTerms
    induction ts generalizing us with
    | nil => rfl
    | cons t ts ih =>
      unfold derive gather at h
      split at h
      · rename_i l k _ h2
        rw [List.map_cons, List.map_cons, List.sum_cons, List.sum_cons, snd_add, ih h2]
      · simp at h
  rw [h1, evalTerms]
  exact gather_some h _ _ fun t _ l hl => deriveTerm_sound hm hl e he

/-- A first derivative verified by computation. -/
theorem checkTo_sound {rule : Nat → Rule} {m : X} {ten : Tens R O V X}
    {ten' : Tens (DualNumber R) O V X} (hf : (fun r ix => fst (ten' r ix)) = ten)
    (hm : Moves rule m ten') {sym : Nat → List Sym} (hs : Respects sym ten) {b : Nat}
    {cs : List Cert} {p q : List Def} {x : Nat} {ts us vs : List Term}
    (h : checkTo sym b cs p ts (derived rule x q us) vs = true) (e : Env O V X) (he : e x = .x m) :
    evalTerms (run p ten) ts e
      = snd (evalTerms (run q ten') us e) + evalTerms ten vs e := by
  unfold checkTo at h
  split at h
  · simp at h
  rename_i ds hd
  unfold derived at hd
  split at hd
  · simp at hd
  rename_i ws hw
  have h1 := check_sound ten hs h e
  rw [h1, evalTerms_append, expand_sound q ten' us e hw, derive_sound hm hd e he, hf]
  rfl

/-- A second derivative verified by computation. -/
theorem checkTo_sound2 {rule : Nat → Rule} {m n : X} {ten : Tens R O V X}
    {ten' : Tens (DualNumber R) O V X} {ten'' : Tens (DualNumber (DualNumber R)) O V X}
    (hf : (fun r ix => fst (ten' r ix)) = ten) (hf' : (fun r ix => fst (ten'' r ix)) = ten')
    (hm : Moves rule m ten'') (hn : Moves rule n ten') {sym : Nat → List Sym}
    (hs : Respects sym ten) {b : Nat} {cs : List Cert} {p q : List Def} {x y : Nat}
    {ts us vs : List Term} (h : checkTo sym b cs p ts (derived2 rule x y q us) vs = true)
    (e : Env O V X) (he : e x = .x m) (he' : e y = .x n) :
    evalTerms (run p ten) ts e
      = snd (snd (evalTerms (run q ten'') us e)) + evalTerms ten vs e := by
  unfold checkTo at h
  split at h
  · simp at h
  rename_i ds hd
  unfold derived2 derived at hd
  split at hd
  · simp at hd
  rename_i zs hz
  split at hz
  · simp at hz
  rename_i ws hw
  have h1 := check_sound ten hs h e
  rw [h1, evalTerms_append, expand_sound q ten'' us e hw, derive_sound hm hz e he, hf',
    derive_sound hn hd e he', hf]
  rfl

/-- Reading an element of a result. -/
theorem evalTerms_read (ten : Tens R O V X) (r : Nat) (ns : List Nat) (e : Env O V X) :
    evalTerms ten [⟨⟨1, 0⟩, [], [⟨r, ns⟩]⟩] e = ten r (ns.map e) := by
  simp [evalTerms, Term.eval, Coef.val, sumVars, prodFacs]

end

end OpenMS.Einsum
