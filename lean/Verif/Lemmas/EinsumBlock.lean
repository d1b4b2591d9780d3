/-
Tensor programs: different names for the blocks of an array.
-/
import Verif.Lemmas.Einsum

namespace OpenMS.Einsum

variable {R O V X : Type*}

/-- Kind of the axis of a position. -/
def Idx.kind? : Idx O V X → Option Kind
  | .none => Option.none
  | .o _ => some .occ
  | .v _ => some .vir
  | .x _ => some .mode

/-- The letters have positions on their axes. -/
def Good (ns : List Nat) (e : Env O V X) : Prop := ∀ n ∈ ns, (e n).kind? = some (kind n)

/-- Every block of an array has its own name. -/
def Fac.block (bl : Nat → List Kind → Nat) (f : Fac) : Fac := ⟨bl f.root (f.idx.map kind), f.idx⟩

/-- The same for all factors of a term. -/
def Term.block (bl : Nat → List Kind → Nat) (t : Term) : Term :=
  ⟨t.coef, t.dum, t.facs.map (Fac.block bl)⟩

/-- All factors of the term are blocks `ok`. -/
def Term.blockable (ok : Nat → List Kind → Bool) (t : Term) : Bool :=
  t.facs.all fun f => ok f.root (f.idx.map kind)

variable [CommRing R]

/-- The blocks `ok` of `ten` are the arrays `ten'`. -/
def Blocks (ok : Nat → List Kind → Bool) (bl : Nat → List Kind → Nat) (ten ten' : Tens R O V X) :
    Prop :=
  ∀ (r : Nat) (ks : List Kind) (ds : List (Idx O V X)), ok r ks = true →
    ds.map Idx.kind? = ks.map some → ten r ds = ten' (bl r ks) ds

variable [Algebra ℚ R] [Fintype O] [Fintype V] [Fintype X]

omit [Algebra ℚ R] in
theorem sumVars_good {L : List Nat} {f g : Env O V X → R}
    (h : ∀ e, Good L e → f e = g e) : ∀ (ns : List Nat) (e : Env O V X),
      (∀ n ∈ L, n ∉ ns → (e n).kind? = some (kind n)) → sumVars ns f e = sumVars ns g e
  | [], e, he => h e fun n hn => he n hn (by simp)
  | n :: ns, e, he => by
    have key : ∀ d : Idx O V X, d.kind? = some (kind n) →
        sumVars ns f (Function.update e n d) = sumVars ns g (Function.update e n d) := fun d hd =>
      sumVars_good h ns _ fun k hk hkn => by
        by_cases hc : k = n
        · subst hc; simpa using hd
        · rw [Function.update_of_ne hc]
          exact he k hk (by simp [hc, hkn])
    simp only [sumVars, sumOver]
    cases hk : kind n
    · exact Finset.sum_congr rfl fun i _ => key _ (by rw [hk]; rfl)
    · exact Finset.sum_congr rfl fun i _ => key _ (by rw [hk]; rfl)
    · exact Finset.sum_congr rfl fun i _ => key _ (by rw [hk]; rfl)

theorem block_sound {ok : Nat → List Kind → Bool} {bl : Nat → List Kind → Nat}
    {ten ten' : Tens R O V X} (hb : Blocks ok bl ten ten') {out : List Nat} {ts : List Term}
    (hc : (ts.all (closed out)) = true) (hk : (ts.all (Term.blockable ok)) = true) {e : Env O V X} (he : Good out e) :
    evalTerms ten ts e = evalTerms ten' (ts.map (Term.block bl)) e := by
  unfold evalTerms
  rw [List.map_map]
  congr 1
  refine List.map_congr_left fun t ht => ?_
  have h1 := List.all_eq_true.1 hc t ht
  unfold closed at h1
  simp only [Bool.and_eq_true, List.all_eq_true, Bool.or_eq_true, List.contains_iff_mem] at h1
  simp only [Function.comp, Term.eval, Term.block]
  congr 1
  refine sumVars_good (L := vars t.facs) (fun e' he' => ?_) t.dum e fun n hn hd => ?_
  · unfold prodFacs
    rw [List.map_map]
    congr 1
    refine List.map_congr_left fun f hf => ?_
    refine hb _ _ _ (List.all_eq_true.1 (List.all_eq_true.1 hk t ht) f hf) ?_
    simp only [List.map_map]
    refine List.map_congr_left fun n hn => ?_
    refine he' n ?_
    unfold vars
    exact List.mem_flatMap.2 ⟨f, hf, hn⟩
  · rcases h1.1 n hn with h | h
    · exact he n h
    · exact absurd h hd

/-- Terms of a program with a name for every block. -/
def blockOk (ok : Nat → List Kind → Bool) (bl : Nat → List Kind → Nat) (out : List Nat)
    (p : List Def) (ts : List Term) : Option (List Term) :=
  match expandOk p ts with
  | none => none
  | some us => bif us.all (closed out) && us.all (Term.blockable ok) then some (us.map (Term.block bl)) else none

theorem blockOk_sound {ok : Nat → List Kind → Bool} {bl : Nat → List Kind → Nat}
    {ten ten' : Tens R O V X} (hb : Blocks ok bl ten ten') {out : List Nat} {p : List Def} {ts us : List Term}
    (h : blockOk ok bl out p ts = some us) {e : Env O V X} (he : Good out e) :
    evalTerms (run p ten) ts e = evalTerms ten' us e := by
  unfold blockOk at h
  split at h
  · simp at h
  rename_i vs hv
  rw [expand_sound p ten ts e hv]
  cases hc : vs.all (closed out) && vs.all (Term.blockable ok) with
  | false => simp [hc] at h
  | true =>
    simp only [hc, cond_true, Option.some.injEq] at h
    subst h
    rw [Bool.and_eq_true] at hc
    exact block_sound hb hc.1 hc.2 he

/-- No statement reads an array that another one writes, and each writes another array. -/
def parallel (p : List Def) : Bool :=
  (p.map Def.name).Nodup && p.all fun d => d.lines.all fun l => l.ops.all fun o =>
    !(p.map Def.name).contains o.root

omit [Algebra ℚ R] [Fintype O] [Fintype V] [Fintype X] in
theorem prodFacs_congr {ten ten' : Tens R O V X} {fs : List Fac}
    (h : ∀ f ∈ fs, ten f.root = ten' f.root) (e : Env O V X) :
    prodFacs ten fs e = prodFacs ten' fs e := by
  unfold prodFacs
  congr 1
  exact List.map_congr_left fun f hf => by rw [h f hf]

theorem evalAt_congr {ten ten' : Tens R O V X} {d : Def}
    (h : ∀ l ∈ d.lines, ∀ o ∈ l.ops, ten o.root = ten' o.root) (ds : List (Idx O V X)) :
    evalAt ten d.terms ds = evalAt ten' d.terms ds := by
  unfold evalAt Def.terms
  rw [List.map_map, List.map_map]
  congr 1
  refine List.map_congr_left fun l hl => ?_
  simp only [Function.comp, Term.eval]
  congr 1
  refine sumVars_congr (fun e => ?_) _
  refine prodFacs_congr (fun f hf => ?_) e
  simp only [Line.term, List.mem_map] at hf
  obtain ⟨o, ho, rfl⟩ := hf
  exact h l hl o ho

theorem run_other {r : Nat} : ∀ {p : List Def}, r ∉ p.map Def.name → ∀ ten : Tens R O V X,
    run p ten r = ten r
  | [], _, _ => rfl
  | d :: p, h, ten => by
    simp only [List.map_cons, List.mem_cons, not_or] at h
    rw [run, run_other h.2]
    funext ds
    simp [Def.run, h.1]

theorem run_parallel_aux {d : Def} : ∀ {p : List Def}, (p.map Def.name).Nodup → d ∈ p →
    (∀ l ∈ d.lines, ∀ o ∈ l.ops, o.root ∉ p.map Def.name) → ∀ ten : Tens R O V X,
      run p ten d.name = evalAt ten d.terms
  | c :: p, hn, hd, ho, ten => by
    simp only [List.map_cons, List.nodup_cons] at hn
    rw [run]
    rcases List.mem_cons.1 hd with rfl | hd
    · rw [run_other hn.1]
      funext ds
      simp [Def.run]
    · rw [run_parallel_aux hn.2 hd (fun l hl o h h' => ho l hl o h (by simp [h']))]
      funext ds
      refine evalAt_congr (fun l hl o h => ?_) ds
      funext ds
      have : o.root ≠ c.name := fun h' => ho l hl o h (by simp [h'])
      simp [Def.run, this]

/-- Value of the arrays written by a parallel block of statements. -/
theorem run_parallel {p : List Def} (hp : parallel p = true) {d : Def} (hd : d ∈ p)
    (ten : Tens R O V X) : run p ten d.name = evalAt ten d.terms := by
  simp only [parallel, Bool.and_eq_true, List.all_eq_true, Bool.not_eq_true', decide_eq_true_eq,
    List.contains_eq_mem, decide_eq_false_iff_not] at hp
  exact run_parallel_aux hp.1 hd (hp.2 d hd) ten

end OpenMS.Einsum
