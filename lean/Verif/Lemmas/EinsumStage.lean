/-
Proofs of the comparisons of `Verif/Lemmas/Einsum.lean` in small steps: the lists of terms between
the steps are computed by the elaborator and written into the proof as literals, and the kernel
verifies every step on literals.
-/
import Verif.Lemmas.EinsumSearch
import Verif.Lemmas.EinsumDerive
import Verif.Lemmas.EinsumOne
import Lean.Elab.Tactic.Basic
import Lean.Meta.Eval

namespace OpenMS.Einsum

/-- `f n`, after evaluation of `n`. -/
def force {α : Type} (n : Nat) (f : Nat → α) : α :=
  match n with
  | 0 => f 0
  | k + 1 => f (k + 1)

theorem force_eq {α : Type} (n : Nat) (f : Nat → α) : force n f = f n := by
  cases n <;> rfl

/-- `place`, with comparisons of numbers. -/
def placeF : List Nat → List Nat → Nat → Nat → Nat
  | o :: os, j :: js, s, n =>
    match Nat.beq n o with
    | true => j
    | false => placeF os js s n
  | _, _, s, n => n + s

theorem placeF_eq : ∀ (os js : List Nat) (s n : Nat), placeF os js s n = place os js s n
  | o :: os, j :: js, s, n => by
    unfold placeF place
    rw [placeF_eq os js s n]
    by_cases h : n = o
    · subst h
      simp
    · have h' : Nat.beq n o = false := by
        rw [Bool.eq_false_iff, ne_eq, Nat.beq_eq]
        exact h
      simp [h', h]
  | [], _, _, _ => by simp [placeF, place]
  | _ :: _, [], _, _ => by simp [placeF, place]

/-- `splice`, with the shift evaluated first. -/
def spliceF (out js : List Nat) (s : Nat) (dt r : Term) : Term :=
  force (s + 3 * (1 + Nat.max (top r.dum) (top (vars r.facs)))) fun s =>
    ⟨dt.coef.mul r.coef, dt.dum.map (placeF out js s) ++ r.dum,
      renFacs (placeF out js s) dt.facs ++ r.facs⟩

theorem spliceF_eq : spliceF = splice := by
  funext out js s dt r
  have h : ∀ s, placeF out js s = place out js s := fun s => funext fun n => placeF_eq out js s n
  simp only [spliceF, force_eq, splice, h]

/-- `unfoldFacs` by the functions above. -/
def unfoldFacsF (name : Nat) (ts : List (List Nat × Term)) (s : Nat) : List Fac → List Term
  | [] => [⟨⟨1, 0⟩, [], []⟩]
  | f :: fs =>
    match Nat.beq f.root name with
    | true => ts.flatMap fun dt => (unfoldFacsF name ts s fs).map fun r =>
        spliceF dt.1 f.idx s dt.2 r
    | false => (unfoldFacsF name ts s fs).map fun r => ⟨r.coef, r.dum, f :: r.facs⟩

theorem unfoldFacsF_eq (name : Nat) (ts : List (List Nat × Term)) (s : Nat) :
    ∀ fs : List Fac, unfoldFacsF name ts s fs = unfoldFacs name ts s fs
  | [] => rfl
  | f :: fs => by
    unfold unfoldFacsF unfoldFacs
    rw [unfoldFacsF_eq name ts s fs, spliceF_eq]
    by_cases h : f.root = name
    · subst h
      simp
    · have h' : Nat.beq f.root name = false := by
        rw [Bool.eq_false_iff, ne_eq, Nat.beq_eq]
        exact h
      simp [h', h]

/-- `unfold` by the functions above. -/
def unfoldF (d : Def) (ts : List (List Nat × Term)) (t : Term) : List Term :=
  force (3 * (1 + top (vars t.facs))) fun s =>
    (unfoldFacsF d.name ts s t.facs).map fun r => ⟨t.coef.mul r.coef, t.dum ++ r.dum, r.facs⟩

theorem unfoldF_eq : unfoldF = unfold := by
  funext d ts t
  simp only [unfoldF, force_eq, unfold, unfoldFacsF_eq]

/-- Whether a tensor occurs in a product. -/
def occurs (name : Nat) : List Fac → Bool
  | [] => false
  | f :: fs =>
    match Nat.beq f.root name with
    | true => true
    | false => occurs name fs

/-- One definition unfolded in a list of terms. -/
def unfoldAll (d : Def) (dt : List (List Nat × Term)) : List Term → Option (List Term)
  | [] => some []
  | t :: ts =>
    match unfoldAll d dt ts with
    | none => none
    | some us =>
      match occurs d.name t.facs with
      | false => some (t :: us)
      | true =>
        match fits d t with
        | true => some (unfoldF d dt t ++ us)
        | false => none

theorem occurs_false {name : Nat} : ∀ {fs : List Fac}, occurs name fs = false →
    ∀ f ∈ fs, f.root ≠ name
  | [], _ => by simp
  | g :: fs, h => by
    unfold occurs at h
    split at h
    · simp at h
    · rename_i hb
      intro f hf
      rcases List.mem_cons.1 hf with rfl | hf
      · intro e
        rw [e] at hb
        simp at hb
      · exact occurs_false h f hf

theorem unfoldFacs_none (name : Nat) (ts : List (List Nat × Term)) (s : Nat) :
    ∀ {fs : List Fac}, (∀ f ∈ fs, f.root ≠ name) → unfoldFacs name ts s fs = [⟨⟨1, 0⟩, [], fs⟩]
  | [], _ => rfl
  | f :: fs, h => by
    have hf : (f.root == name) = false := by simpa using h f (by simp)
    simp [unfoldFacs, hf, unfoldFacs_none name ts s (fs := fs) fun g hg => h g (by simp [hg])]

theorem unfoldAll_sound {d : Def} : ∀ {ts us : List Term}, unfoldAll d d.terms ts = some us →
    ts.all (fits d) = true ∧ ts.flatMap (unfold d d.terms) = us
  | [], us, h => by
    simp only [unfoldAll, Option.some.injEq] at h
    subst h
    simp
  | t :: ts, us, h => by
    unfold unfoldAll at h
    split at h
    · simp at h
    rename_i vs hv
    obtain ⟨i1, i2⟩ := unfoldAll_sound hv
    split at h
    · rename_i ho
      simp only [Option.some.injEq] at h
      subst h
      have hn := occurs_false ho
      constructor
      · simp only [List.all_cons, Bool.and_eq_true]
        refine ⟨?_, i1⟩
        simp only [fits, List.all_eq_true, Bool.or_eq_true, bne_iff_ne]
        exact fun f hf => .inl (hn f hf)
      · rw [List.flatMap_cons, i2, unfold, unfoldFacs_none _ _ _ hn]
        simp [Coef.mul]
    · split at h
      · rename_i hf
        simp only [Option.some.injEq] at h
        subst h
        simp [hf, i1, i2, unfoldF_eq]
      · simp at h

theorem expandOk_nil {ts us : List Term} (h : ts = us) : expandOk [] ts = some us := by
  rw [h, expandOk]

theorem expandOk_cons {d : Def} {ds : List Def} {ts us vs : List Term}
    {dt : List (List Nat × Term)} (h : expandOk ds ts = some us) (hd : d.terms = dt)
    (hc : (dt.all fun t => closed t.1 t.2) = true) (hu : unfoldAll d dt us = some vs) :
    expandOk (d :: ds) ts = some vs := by
  subst hd
  obtain ⟨h1, h2⟩ := unfoldAll_sound hu
  rw [expandOk, h]
  simp only [hc, h1, Bool.and_self, h2]

/-- The factors of all terms put in order. -/
def arranges (sym : Nat → List Sym) : List Cert → List Term → Option (List (Int × List Fac))
  | [], [] => some []
  | c :: cs, t :: ts =>
    match arrange sym c t.facs with
    | none => none
    | some a =>
      match arranges sym cs ts with
      | none => none
      | some as => some (a :: as)
  | _, _ => none

/-- The letters found are those summed over. -/
def dumsOk : List (List Nat) → List Term → Bool
  | ds :: dss, t :: ts =>
    match Nat.beq ds.length t.dum.length && ds.all fun n => has n t.dum with
    | false => false
    | true => dumsOk dss ts
  | _, _ => true

/-- Factors with renamed letters. -/
def renAll (b : Nat) : List (List Nat) → List (Int × List Fac) → List (List Fac)
  | ds :: dss, a :: as => renFacs (ren ds (b + 1)) a.2 :: renAll b dss as
  | _, _ => []

/-- Coefficients with the signs. -/
def scaleds : List Term → List (Int × List Fac) → Option (List Int)
  | t :: ts, a :: as =>
    match scaled t.coef, scaleds ts as with
    | some z, some zs => some (z * a.1 :: zs)
    | _, _ => none
  | _, _ => some []

/-- Collects numbers with coefficients. -/
def gatherCodes : List Nat → List Int → Tree → Tree
  | k :: ks, z :: zs, a => gatherCodes ks zs (a.insert k z)
  | _, _, a => a

theorem collect_codes {sym : Nat → List Sym} {b : Nat} : ∀ {cs : List Cert} {ts : List Term}
    {as : List (Int × List Fac)} {dss : List (List Nat)} {fss : List (List Fac)}
    {zs : List Int} {a : Tree},
    arranges sym cs ts = some as → (as.map fun a => firsts b [] (vars a.2)) = dss →
    dumsOk dss ts = true → renAll b dss as = fss →
    (fss.map fun fs => firsts b [] (vars fs)) = dss.map (fun ds => ds.map (ren ds (b + 1))) →
    fss.all small = true → scaleds ts as = some zs →
      collect sym b cs ts a = some (gatherCodes (fss.map code) zs a)
  | [], [], as, dss, fss, zs, a, h1, h2, h3, h4, h5, h6, h7 => by
    simp only [arranges, Option.some.injEq] at h1
    subst h1
    simp only [List.map_nil] at h2
    subst h2
    simp only [renAll] at h4
    subst h4
    rfl
  | [], t :: ts, as, _, _, _, _, h, _, _, _, _, _, _ => by simp [arranges] at h
  | c :: cs, [], as, _, _, _, _, h, _, _, _, _, _, _ => by simp [arranges] at h
  | c :: cs, t :: ts, as, dss, fss, zs, a, h1, h2, h3, h4, h5, h6, h7 => by
    unfold arranges at h1
    split at h1
    · simp at h1
    rename_i x hx
    split at h1
    · simp at h1
    rename_i as' has
    simp only [Option.some.injEq] at h1
    subst h1
    obtain ⟨q, gs⟩ := x
    simp only [List.map_cons] at h2
    subst h2
    unfold dumsOk at h3
    split at h3
    · simp at h3
    rename_i hd
    simp only [renAll] at h4
    subst h4
    simp only [List.map_cons, List.cons.injEq] at h5
    simp only [List.all_cons, Bool.and_eq_true] at h6
    unfold scaleds at h7
    split at h7
    · rename_i z zs' hz hzs
      simp only [Option.some.injEq] at h7
      subst h7
      unfold collect normal
      rw [hx]
      simp only [hd]
      rw [← h5.1]
      simp only [h6.1, beq_self_eq_true, Bool.and_self, hz]
      have hp : 0 < code (renFacs (ren (firsts b [] (vars gs)) (b + 1)) gs) :=
        number_pos 1 (digits _) one_pos
      obtain ⟨k, hk⟩ := Nat.exists_eq_succ_of_ne_zero hp.ne'
      rw [hk]
      simp only [List.map_cons, hk, gatherCodes]
      exact collect_codes has rfl h3 rfl h5.2 h6.2 hzs
    · simp at h7

theorem check_of {sym : Nat → List Sym} {b : Nat} {cs : List Cert} {p q : List Def}
    {ts us ts' us' vs : List Term} {as : List (Int × List Fac)} {dss dss' : List (List Nat)}
    {fss : List (List Fac)} {ks : List Nat} {zs : List Int} (hp : expandOk p ts = some ts')
    (hq : expandOk q us = some us') (hv : ts' ++ us'.map Term.neg = vs)
    (h1 : arranges sym cs vs = some as) (h2 : (as.map fun a => firsts b [] (vars a.2)) = dss)
    (h3 : dumsOk dss vs = true) (h4 : renAll b dss as = fss)
    (h5 : (fss.map fun fs => firsts b [] (vars fs)) = dss')
    (h6 : dss.map (fun ds => ds.map (ren ds (b + 1))) = dss')
    (h7 : fss.all small = true) (h8 : scaleds vs as = some zs) (h9 : fss.map code = ks)
    (hn : (gatherCodes ks zs .leaf).null = true) : ∃ cs, check sym b cs p q ts us = true := by
  refine ⟨cs, ?_⟩
  unfold check
  rw [hp, hq]
  subst h9
  simp only [hv, collect_codes h1 h2 h3 h4 (h5.trans h6.symm) h7 h8, hn]

theorem checkTo_of {sym : Nat → List Sym} {b : Nat} {p : List Def} {ts vs ds' : List Term}
    {ds : Option (List Term)} (hd : ds = some ds')
    (h : ∃ cs, check sym b cs p [] ts (ds' ++ vs) = true) :
    ∃ cs, checkTo sym b cs p ts ds vs = true := by
  subst hd
  exact h

theorem checkOne_of {sym : Nat → List Sym} {b z : Nat} {p : List Def} {ts vs ds' us us' ws : List Term}
    {ds : Option (List Term)} (hp : expandOk p ts = some us) (hd : ds = some ds')
    (hu : us.map (Term.one z) = us') (hw : (ds' ++ vs).map (Term.one z) = ws)
    (h : ∃ cs, check sym b cs [] [] us' ws = true) :
    ∃ cs, checkOne sym b z cs p ts ds vs = true := by
  subst hd hu hw
  obtain ⟨cs, h⟩ := h
  refine ⟨cs, ?_⟩
  unfold checkOne
  rw [hp]
  exact h

theorem derived_of {rule : Nat → Rule} {x : Nat} {q : List Def} {ts us vs : List Term}
    (h : expandOk q ts = some us) (hd : derive rule x us = some vs) :
    derived rule x q ts = some vs := by
  rw [derived, h]
  exact hd

theorem derived2_of {rule : Nat → Rule} {x y : Nat} {q : List Def} {ts us vs : List Term}
    (h : derived rule x q ts = some us) (hd : derive rule y us = some vs) :
    derived2 rule x y q ts = some vs := by
  rw [derived2, h]
  exact hd

/-! The elaborator. -/

section Elaborator

open Lean Meta Elab Tactic

/-- Integers as constructors of literals. -/
def intExpr : Int → Expr
  | .ofNat n => mkApp (mkConst ``Int.ofNat) (mkRawNatLit n)
  | .negSucc n => mkApp (mkConst ``Int.negSucc) (mkRawNatLit n)

def listExpr (ty : Expr) : List Expr → Expr
  | [] => mkApp (mkConst ``List.nil [0]) ty
  | e :: es => mkApp3 (mkConst ``List.cons [0]) ty e (listExpr ty es)

def natTy : Expr := mkConst ``Nat

def natsExpr (ns : List Nat) : Expr := listExpr natTy (ns.map mkRawNatLit)

def facExpr (f : Fac) : Expr := mkApp2 (mkConst ``Fac.mk) (mkRawNatLit f.root) (natsExpr f.idx)

def coefExpr (c : Coef) : Expr := mkApp2 (mkConst ``Coef.mk) (intExpr c.num) (mkRawNatLit c.half)

def facsExpr (fs : List Fac) : Expr := listExpr (mkConst ``Fac) (fs.map facExpr)

def termExpr (t : Term) : Expr :=
  mkApp3 (mkConst ``Term.mk) (coefExpr t.coef) (natsExpr t.dum)
    (facsExpr t.facs)

def termTy : Expr := mkConst ``Term

def termsExpr (ts : List Term) : Expr := listExpr termTy (ts.map termExpr)

def kindExpr : Kind → Expr
  | .occ => mkConst ``Kind.occ
  | .vir => mkConst ``Kind.vir
  | .mode => mkConst ``Kind.mode

def operandExpr (o : Operand) : Expr :=
  mkApp3 (mkConst ``Operand.mk) (mkRawNatLit o.root)
    (listExpr (mkConst ``Kind) (o.blk.map kindExpr)) (natsExpr o.idx)

def lineExpr (l : Line) : Expr :=
  mkApp3 (mkConst ``Line.mk) (coefExpr l.coef) (natsExpr l.out)
    (listExpr (mkConst ``Operand) (l.ops.map operandExpr))

def defExpr (d : Def) : Expr :=
  mkApp2 (mkConst ``Def.mk) (mkRawNatLit d.name) (listExpr (mkConst ``Line) (d.lines.map lineExpr))

def pairTy (a b : Expr) : Expr := mkApp2 (mkConst ``Prod [0, 0]) a b

def pairExpr (a b x y : Expr) : Expr := mkApp4 (mkConst ``Prod.mk [0, 0]) a b x y

def listTy (a : Expr) : Expr := mkApp (mkConst ``List [0]) a

def defTermsExpr (ts : List (List Nat × Term)) : Expr :=
  listExpr (pairTy (listTy natTy) termTy)
    (ts.map fun t => pairExpr (listTy natTy) termTy (natsExpr t.1) (termExpr t.2))

def certsExpr (cs : List Cert) : Expr :=
  let p := pairTy natTy natTy
  listExpr (listTy p) (cs.map fun c => listExpr p (c.map fun x =>
    pairExpr natTy natTy (mkRawNatLit x.1) (mkRawNatLit x.2)))

def someExpr (ty e : Expr) : Expr := mkApp2 (mkConst ``Option.some [0]) ty e

def optTy (ty : Expr) : Expr := mkApp (mkConst ``Option [0]) ty

/-- `lhs = rhs` as a lemma of its own, proved by evaluation in the kernel. -/
def rflLemma (ty lhs rhs : Expr) : MetaM Expr := do
  let prop := mkApp3 (mkConst ``Eq [1]) ty lhs rhs
  let pf := mkApp2 (mkConst ``Eq.refl [1]) ty rhs
  let name ← mkAuxLemma [] prop pf
  return mkConst name

def evalAs (α : Type) [Inhabited α] (ty e : Expr) : MetaM α := do
  let e ← instantiateMVars e
  let v ← unsafe evalExpr α ty e
  return v

/-- Proof of `expandOk p ts = some us` and the terms `us`. -/
def proveExpand (p ts : Expr) : MetaM (Expr × List Term) := do
  let ds ← evalAs (List Def) (listTy (mkConst ``Def)) p
  let t0 ← evalAs (List Term) (listTy termTy) ts
  let h0 ← rflLemma (listTy termTy) ts (termsExpr t0)
  let mut pf := mkApp3 (mkConst ``expandOk_nil) ts (termsExpr t0) h0
  let mut us := t0
  let mut rest := listExpr (mkConst ``Def) []
  for d in ds.reverse do
    let dt := d.terms
    let some vs := unfoldAll d dt us | throwError "expansion fails"
    let dE := defExpr d
    let dtE := defTermsExpr dt
    let usE := termsExpr us
    let vsE := termsExpr vs
    let h1 ← rflLemma (listTy (pairTy (listTy natTy) termTy)) (mkApp (mkConst ``Def.terms) dE) dtE
    let cl ← mkAppM ``List.all #[dtE,
      .lam `t (pairTy (listTy natTy) termTy) (mkApp2 (mkConst ``closed)
        (mkApp3 (mkConst ``Prod.fst [0, 0]) (listTy natTy) termTy (.bvar 0))
        (mkApp3 (mkConst ``Prod.snd [0, 0]) (listTy natTy) termTy (.bvar 0))) .default]
    let h2 ← rflLemma (mkConst ``Bool) cl (mkConst ``Bool.true)
    let h3 ← rflLemma (optTy (listTy termTy))
      (mkApp3 (mkConst ``unfoldAll) dE dtE usE) (someExpr (listTy termTy) vsE)
    pf := mkAppN (mkConst ``expandOk_cons) #[dE, rest, ts, usE, vsE, dtE, pf, h1, h2, h3]
    rest := mkApp3 (mkConst ``List.cons [0]) (mkConst ``Def) dE rest
    us := vs
  return (pf, us)

def proveCheck (symE bE p q ts us : Expr) : MetaM Expr := do
  let (hp, A) ← proveExpand p ts
  let (hq, B) ← proveExpand q us
  let sym ← evalAs (Nat → List Sym) (← inferType symE) symE
  let b ← evalAs Nat natTy bE
  let vs := A ++ B.map Term.neg
  let cs := vs.map (certificate sym b)
  let some as := arranges sym cs vs | throwError "no arrangement"
  let dss := as.map fun a => firsts b [] (vars a.2)
  let fss := renAll b dss as
  let dss' := fss.map fun fs => firsts b [] (vars fs)
  let some zs := scaleds vs as | throwError "no coefficients"
  let ks := fss.map code
  unless dumsOk dss vs && fss.all small && (gatherCodes ks zs .leaf).null do
    throwError "the terms do not cancel"
  let (AE, BE, vsE, csE) := (termsExpr A, termsExpr B, termsExpr vs, certsExpr cs)
  let facsTy := listTy (mkConst ``Fac)
  let aTy := pairTy (mkConst ``Int) facsTy
  let asE := listExpr aTy (as.map fun a => pairExpr (mkConst ``Int) facsTy (intExpr a.1) (facsExpr a.2))
  let dssE := listExpr (listTy natTy) (dss.map natsExpr)
  let dssE' := listExpr (listTy natTy) (dss'.map natsExpr)
  let fssE := listExpr facsTy (fss.map facsExpr)
  let ksE := natsExpr ks
  let zsE := listExpr (mkConst ``Int) (zs.map intExpr)
  let lt := listTy termTy
  let boolTy := mkConst ``Bool
  let tt := mkConst ``Bool.true
  let dTy := listTy (listTy natTy)
  let map := fun a b f l => mkApp4 (mkConst ``List.map [0, 0]) a b f l
  let firstsE := fun x => mkApp3 (mkConst ``firsts) bE (natsExpr []) (mkApp (mkConst ``vars) x)
  let hv ← rflLemma lt (← mkAppM ``HAppend.hAppend #[AE, map termTy termTy (mkConst ``Term.neg) BE]) vsE
  let h1 ← rflLemma (optTy (listTy aTy)) (mkApp3 (mkConst ``arranges) symE csE vsE)
    (someExpr (listTy aTy) asE)
  let h2 ← rflLemma dTy (map aTy (listTy natTy)
    (.lam `a aTy (firstsE (mkApp3 (mkConst ``Prod.snd [0, 0]) (mkConst ``Int) facsTy (.bvar 0))) .default)
    asE) dssE
  let h3 ← rflLemma boolTy (mkApp2 (mkConst ``dumsOk) dssE vsE) tt
  let h4 ← rflLemma (listTy facsTy) (mkApp3 (mkConst ``renAll) bE dssE asE) fssE
  let h5 ← rflLemma dTy (map facsTy (listTy natTy) (.lam `fs facsTy (firstsE (.bvar 0)) .default) fssE)
    dssE'
  let b1 ← mkAppM ``HAdd.hAdd #[bE, toExpr (1 : Nat)]
  let h6 ← rflLemma dTy (map (listTy natTy) (listTy natTy) (.lam `ds (listTy natTy)
    (map natTy natTy (mkApp2 (mkConst ``ren) (.bvar 0) b1) (.bvar 0)) .default) dssE) dssE'
  let h7 ← rflLemma boolTy (mkApp3 (mkConst ``List.all [0]) facsTy fssE (mkConst ``small)) tt
  let h8 ← rflLemma (optTy (listTy (mkConst ``Int))) (mkApp2 (mkConst ``scaleds) vsE asE)
    (someExpr (listTy (mkConst ``Int)) zsE)
  let h9 ← rflLemma (listTy natTy) (map facsTy natTy (mkConst ``code) fssE) ksE
  let hn ← rflLemma boolTy (mkApp (mkConst ``Tree.null)
    (mkApp3 (mkConst ``gatherCodes) ksE zsE (mkConst ``Tree.leaf))) tt
  return mkAppN (mkConst ``check_of) #[symE, bE, csE, p, q, ts, us, AE, BE, vsE, asE, dssE, dssE',
    fssE, ksE, zsE, hp, hq, hv, h1, h2, h3, h4, h5, h6, h7, h8, h9, hn]

/-- Proof of `ds = some ds'` for a derivative. -/
partial def proveDerived (ds : Expr) : MetaM (Expr × List Term) := do
  let lt := listTy termTy
  match ds.getAppFnArgs with
  | (``derived, #[rule, x, q, ts]) =>
    let (h, us) ← proveExpand q ts
    let some vs ← evalAs (Option (List Term)) (optTy lt) ds | throwError "no derivative"
    let hd ← rflLemma (optTy lt) (mkApp3 (mkConst ``derive) rule x (termsExpr us))
      (someExpr lt (termsExpr vs))
    return (mkAppN (mkConst ``derived_of) #[rule, x, q, ts, termsExpr us, termsExpr vs, h, hd], vs)
  | (``derived2, #[rule, x, y, q, ts]) =>
    let (h, us) ← proveDerived (mkApp4 (mkConst ``derived) rule x q ts)
    let some vs ← evalAs (Option (List Term)) (optTy lt) ds | throwError "no derivative"
    let hd ← rflLemma (optTy lt) (mkApp3 (mkConst ``derive) rule y (termsExpr us))
      (someExpr lt (termsExpr vs))
    return (mkAppN (mkConst ``derived2_of) #[rule, x, y, q, ts, termsExpr us, termsExpr vs, h, hd], vs)
  | _ => throwError "not a derivative"

def proveGoal (body : Expr) : MetaM Expr := do
  let lt := listTy termTy
  let nil := listExpr (mkConst ``Def) []
  match body.getAppFnArgs with
  | (``check, #[sym, b, _, p, q, ts, us]) => proveCheck sym b p q ts us
  | (``checkTo, #[sym, b, _, p, ts, ds, vs]) =>
    let (hd, D) ← proveDerived ds
    let DE := termsExpr D
    let h ← proveCheck sym b p nil ts (← mkAppM ``HAppend.hAppend #[DE, vs])
    return mkAppN (mkConst ``checkTo_of) #[sym, b, p, ts, vs, DE, ds, hd, h]
  | (``checkOne, #[sym, b, zE, _, p, ts, ds, vs]) =>
    let (hp, us) ← proveExpand p ts
    let (hd, D) ← proveDerived ds
    let z ← evalAs Nat natTy zE
    let v ← evalAs (List Term) lt vs
    let us' := us.map (Term.one z)
    let ws := (D ++ v).map (Term.one z)
    let one := mkApp (mkConst ``Term.one) zE
    let hu ← rflLemma lt (mkApp4 (mkConst ``List.map [0, 0]) termTy termTy one (termsExpr us))
      (termsExpr us')
    let hw ← rflLemma lt (mkApp4 (mkConst ``List.map [0, 0]) termTy termTy one
      (← mkAppM ``HAppend.hAppend #[termsExpr D, vs])) (termsExpr ws)
    let h ← proveCheck sym b nil nil (termsExpr us') (termsExpr ws)
    return mkAppN (mkConst ``checkOne_of) #[sym, b, zE, p, ts, vs, termsExpr D, termsExpr us,
      termsExpr us', termsExpr ws, ds, hp, hd, hu, hw, h]
  | _ => throwError "not a comparison"

def einsumCheckImpl (g : MVarId) : MetaM Unit := do
  let ty ← instantiateMVars (← g.getType)
  match ty.getAppFnArgs with
  | (``Exists, #[_, .lam _ _ b _]) =>
    match b.getAppFnArgs with
    | (``Eq, #[_, body, _]) => g.assign (← proveGoal body)
    | _ => throwError "not a comparison"
  | _ => throwError "not a comparison"

/-- Proves `∃ cs, check … = true` and its variants. -/
elab "einsum_check" : tactic => do
  let g ← getMainGoal
  einsumCheckImpl g
  replaceMainGoal []

end Elaborator

end OpenMS.Einsum
