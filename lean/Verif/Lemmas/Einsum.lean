/-
Equality of tensor programs by computation.

A program is expanded into a sum of products of the input tensors
(`expand`, `expand_sound`), every product is brought into a normal form by
reordering its factors, using the symmetries of its tensors and renaming the
letters summed over (`normal`, `normal_sound`), and like products are collected
(`check`, `check_sound`).  The choices (order, symmetry) come from an untrusted
search (`certificate`); `check` verifies them, so a theorem obtained from
`check … = true` holds for all tensors and all sizes of the axes.
-/
import Verif.Model.Einsum
import Mathlib.Algebra.BigOperators.Ring.Finset
import Mathlib.Algebra.BigOperators.Ring.List
import Mathlib.Data.List.Perm.Basic

namespace OpenMS.Einsum

set_option linter.unusedSectionVars false

section

variable {R O V X : Type*} [CommRing R] [Algebra ℚ R] [Fintype O] [Fintype V] [Fintype X]

omit [CommRing R] [Algebra ℚ R] [Fintype O] [Fintype V] [Fintype X] in
theorem Coef.val_mul (c d : Coef) : (c.mul d).val = c.val * d.val := by
  simp only [Coef.val, Coef.mul, Int.cast_mul, pow_add]
  rw [div_mul_div_comm]

/-! ### Sums over letters -/

/-- `f` looks only at the letters of `S`. -/
def Only (S : List Nat) (f : Env O V X → R) : Prop :=
  ∀ e e' : Env O V X, (∀ n ∈ S, e n = e' n) → f e = f e'

theorem sumOver_congr {n : Nat} {f g : Idx O V X → R} (h : ∀ d, f d = g d) :
    sumOver n f = sumOver n g := by
  have : f = g := funext h
  rw [this]

theorem sumOver_kind {n m : Nat} (h : kind n = kind m) (f : Idx O V X → R) :
    sumOver n f = sumOver m f := by
  unfold sumOver; rw [h]

theorem mul_sumOver (n : Nat) (c : R) (f : Idx O V X → R) :
    c * sumOver n f = sumOver n fun d => c * f d := by
  unfold sumOver
  cases kind n <;> exact Finset.mul_sum _ _ _

theorem sumOver_comm (n m : Nat) (f : Idx O V X → Idx O V X → R) :
    (sumOver n fun d => sumOver m fun d' => f d d')
      = sumOver m fun d' => sumOver n fun d => f d d' := by
  unfold sumOver
  cases kind n <;> cases kind m <;> exact Finset.sum_comm

theorem sumOver_add (n : Nat) (f g : Idx O V X → R) :
    (sumOver n fun d => f d + g d) = sumOver n f + sumOver n g := by
  unfold sumOver
  cases kind n <;> exact Finset.sum_add_distrib

theorem sumOver_zero (n : Nat) : (sumOver n fun _ : Idx O V X => (0 : R)) = 0 := by
  unfold sumOver
  cases kind n <;> simp

theorem sumVars_congr {ns : List Nat} {f g : Env O V X → R} (h : ∀ e, f e = g e)
    (e : Env O V X) : sumVars ns f e = sumVars ns g e := by
  have : f = g := funext h
  rw [this]

theorem sumVars_append (ns ms : List Nat) (f : Env O V X → R) (e : Env O V X) :
    sumVars (ns ++ ms) f e = sumVars ns (sumVars ms f) e := by
  induction ns generalizing e with
  | nil => rfl
  | cons n ns ih => exact sumOver_congr fun d => ih _

theorem sumVars_add (ns : List Nat) (f g : Env O V X → R) (e : Env O V X) :
    sumVars ns (fun e => f e + g e) e = sumVars ns f e + sumVars ns g e := by
  induction ns generalizing e with
  | nil => rfl
  | cons n ns ih =>
    simp only [sumVars]
    rw [← sumOver_add]
    exact sumOver_congr fun d => ih _

theorem sumVars_zero (ns : List Nat) (e : Env O V X) :
    sumVars ns (fun _ => (0 : R)) e = 0 := by
  induction ns generalizing e with
  | nil => rfl
  | cons n ns ih =>
    simp only [sumVars, ih]
    exact sumOver_zero n

theorem sumVars_mul (ns : List Nat) (c : R) (f : Env O V X → R) (e : Env O V X) :
    sumVars ns (fun e => c * f e) e = c * sumVars ns f e := by
  induction ns generalizing e with
  | nil => rfl
  | cons n ns ih =>
    simp only [sumVars]
    rw [mul_sumOver]
    exact sumOver_congr fun d => ih _

/-- A factor without the letters summed over can be taken out. -/
theorem sumVars_out {S ns : List Nat} {f : Env O V X → R} (hf : Only S f)
    (hd : ∀ n ∈ ns, n ∉ S) (g : Env O V X → R) (e : Env O V X) :
    sumVars ns (fun e => f e * g e) e = f e * sumVars ns g e := by
  induction ns generalizing e with
  | nil => rfl
  | cons n ns ih =>
    simp only [sumVars]
    rw [mul_sumOver]
    refine sumOver_congr fun d => ?_
    rw [ih (fun m hm => hd m (List.mem_cons_of_mem _ hm))]
    congr 1
    refine hf _ _ fun m hm => ?_
    have : m ≠ n := fun h => hd n (List.mem_cons_self ..) (h ▸ hm)
    simp [Function.update_of_ne this]

theorem only_sumVars {S : List Nat} {f : Env O V X → R} (hf : Only S f) (ns : List Nat) :
    Only S (sumVars ns f) := by
  induction ns with
  | nil => exact hf
  | cons n ns ih =>
    intro e e' h
    refine sumOver_congr fun d => ih _ _ fun m hm => ?_
    by_cases hmn : m = n
    · subst hmn; simp
    · simp [Function.update_of_ne hmn, h m hm]

/-- Product of two sums with different letters. -/
theorem sumVars_prod {S T ns ms : List Nat} {f g : Env O V X → R} (hf : Only S f)
    (hg : Only T g) (h1 : ∀ n ∈ ms, n ∉ S) (h2 : ∀ n ∈ ns, n ∉ T) (e : Env O V X) :
    sumVars (ns ++ ms) (fun e => f e * g e) e = sumVars ns f e * sumVars ms g e := by
  rw [sumVars_append, sumVars_congr (fun e => sumVars_out hf h1 g e)]
  have h := sumVars_out (f := sumVars ms g) (only_sumVars hg ms) h2 f e
  rw [mul_comm (sumVars ns f e), ← h]
  exact sumVars_congr (fun e => mul_comm _ _) e

/-- Renaming of letters. -/
theorem sumVars_rename {S ns : List Nat} {f : Env O V X → R} (hf : Only S f) (ρ : Nat → Nat)
    (hk : ∀ n ∈ ns, kind (ρ n) = kind n)
    (hi : ∀ n ∈ ns, ∀ m, (m ∈ S ∨ m ∈ ns) → m ≠ n → ρ m ≠ ρ n) (e e' : Env O V X)
    (he : ∀ m ∈ S, m ∉ ns → e' (ρ m) = e m) :
    sumVars ns f e = sumVars (ns.map ρ) (fun e => f fun n => e (ρ n)) e' := by
  induction ns generalizing e e' with
  | nil => exact hf _ _ fun n hn => (he n hn (by simp)).symm
  | cons n ns ih =>
    simp only [List.map_cons, sumVars]
    rw [sumOver_kind (hk n (List.mem_cons_self ..)).symm]
    refine sumOver_congr fun d => ih (fun m hm => hk m (List.mem_cons_of_mem _ hm))
      (fun m hm k hk' => hi m (List.mem_cons_of_mem _ hm) k
        (hk'.imp id (List.mem_cons_of_mem _))) _ _ fun m hm hm' => ?_
    by_cases hmn : m = n
    · subst hmn; simp
    · have := hi n (List.mem_cons_self ..) m (Or.inl hm) hmn
      rw [Function.update_of_ne this, Function.update_of_ne hmn]
      exact he m hm (by simp [hmn, hm'])

/-- The order of the letters does not matter. -/
theorem sumVars_perm {ns ms : List Nat} (h : ns.Perm ms) (hn : ns.Nodup)
    (f : Env O V X → R) (e : Env O V X) : sumVars ns f e = sumVars ms f e := by
  induction h generalizing e with
  | nil => rfl
  | cons n h ih => exact sumOver_congr fun d => ih (List.nodup_cons.1 hn).2 _
  | swap n m l =>
    simp only [sumVars]
    rw [sumOver_comm]
    refine sumOver_congr fun d => sumOver_congr fun d' => ?_
    have : m ≠ n := by
      have := (List.nodup_cons.1 hn).1
      intro h; subst h; simp at this
    rw [Function.update_comm this]
  | trans h1 _ ih1 ih2 => rw [ih1 hn, ih2 (h1.nodup_iff.1 hn)]

/-! ### Factors -/

/-- Letters of factors. -/
def vars (fs : List Fac) : List Nat := fs.flatMap Fac.idx

theorem only_prodFacs (ten : Tens R O V X) (fs : List Fac) :
    Only (vars fs) (prodFacs ten fs) := by
  intro e e' h
  unfold prodFacs
  congr 1
  refine List.map_congr_left fun f hf => ?_
  congr 1
  exact List.map_congr_left fun n hn => h n (List.mem_flatMap.2 ⟨f, hf, hn⟩)

/-- Factors with renamed letters. -/
def renFacs (ρ : Nat → Nat) (fs : List Fac) : List Fac := fs.map fun f => ⟨f.root, f.idx.map ρ⟩

theorem prodFacs_ren (ten : Tens R O V X) (ρ : Nat → Nat) (fs : List Fac) (e : Env O V X) :
    prodFacs ten (renFacs ρ fs) e = prodFacs ten fs fun n => e (ρ n) := by
  unfold prodFacs renFacs
  simp [List.map_map, Function.comp_def]

theorem vars_ren (ρ : Nat → Nat) (fs : List Fac) : vars (renFacs ρ fs) = (vars fs).map ρ := by
  simp [vars, renFacs, List.flatMap_map, List.map_flatMap]

theorem prodFacs_cons (ten : Tens R O V X) (f : Fac) (fs : List Fac) (e : Env O V X) :
    prodFacs ten (f :: fs) e = ten f.root (f.idx.map e) * prodFacs ten fs e := by
  simp [prodFacs]

theorem prodFacs_append (ten : Tens R O V X) (fs gs : List Fac) (e : Env O V X) :
    prodFacs ten (fs ++ gs) e = prodFacs ten fs e * prodFacs ten gs e := by
  simp [prodFacs]

/-! ### Expansion of definitions -/

/-- Largest letter, or `0`. -/
def top : List Nat → Nat
  | [] => 0
  | n :: ns => Nat.max n (top ns)

theorem le_top {ns : List Nat} {n : Nat} (h : n ∈ ns) : n ≤ top ns := by
  induction ns with
  | nil => simp at h
  | cons m ms ih =>
    rcases List.mem_cons.1 h with rfl | h
    · exact Nat.le_max_left ..
    · exact (ih h).trans (Nat.le_max_right ..)

/-- Letter `n` of a definition at the place of its use: a letter of the output
becomes the corresponding letter of the use, any other letter is moved by `s`. -/
def place : List Nat → List Nat → Nat → Nat → Nat
  | o :: os, j :: js, s, n => if n == o then j else place os js s n
  | _, _, s, n => n + s

/-- One term of a definition put in place of a factor with letters `js`, next
to the remaining factors `r`; all new letters are above `s`. -/
def splice (out js : List Nat) (s : Nat) (dt r : Term) : Term :=
  let s := s + 3 * (1 + Nat.max (top r.dum) (top (vars r.facs)))
  let ρ := place out js s
  ⟨dt.coef.mul r.coef, dt.dum.map ρ ++ r.dum, renFacs ρ dt.facs ++ r.facs⟩

/-- Products with all factors called `d` replaced by their terms. -/
def unfoldFacs (name : Nat) (ts : List (List Nat × Term)) (s : Nat) : List Fac → List Term
  | [] => [⟨⟨1, 0⟩, [], []⟩]
  | f :: fs =>
    let rest := unfoldFacs name ts s fs
    if f.root == name then
      ts.flatMap fun dt => rest.map fun r => splice dt.1 f.idx s dt.2 r
    else rest.map fun r => ⟨r.coef, r.dum, f :: r.facs⟩

/-- A term with the definition `d` unfolded. -/
def unfold (d : Def) (ts : List (List Nat × Term)) (t : Term) : List Term :=
  (unfoldFacs d.name ts (3 * (1 + top (vars t.facs))) t.facs).map fun r =>
    ⟨t.coef.mul r.coef, t.dum ++ r.dum, r.facs⟩

/-- Terms written with the input tensors of a program. -/
def expand : List Def → List Term → List Term
  | [], ts => ts
  | d :: ds, ts =>
    let dt := d.terms
    (expand ds ts).flatMap (unfold d dt)

/-- Every letter of the factors is summed over or in `out`. -/
def closed (out : List Nat) (t : Term) : Bool :=
  (vars t.facs).all (fun n => out.contains n || t.dum.contains n) &&
    t.dum.all fun n => !out.contains n

theorem place_out : ∀ (out js : List Nat) (s : Nat) {n : Nat}, n ∈ out →
    out.length = js.length → place out js s n ∈ js
  | [], _, _, _, h, _ => by simp at h
  | _ :: _, [], _, _, _, hl => by simp at hl
  | o :: os, j :: js, s, n, h, hl => by
    unfold place
    by_cases hn : n = o
    · simp [hn]
    · have : n ∈ os := by simpa [hn] using h
      simp only [beq_iff_eq, hn, if_false]
      exact List.mem_cons_of_mem _ (place_out os js s this (by simpa using hl))

theorem place_not : ∀ (out js : List Nat) (s : Nat) {n : Nat}, n ∉ out →
    place out js s n = n + s
  | [], _, _, _, _ => rfl
  | _ :: _, [], _, _, _ => rfl
  | o :: os, j :: js, s, n, h => by
    unfold place
    have h1 : n ≠ o := fun hh => h (hh ▸ List.mem_cons_self ..)
    simp only [beq_iff_eq, h1, if_false]
    exact place_not os js s fun hh => h (List.mem_cons_of_mem _ hh)

theorem bind_place : ∀ (out js : List Nat) (s : Nat) (e : Env O V X) {n : Nat}, n ∈ out →
    out.length = js.length → e (place out js s n) = bind out (js.map e) n
  | [], _, _, _, _, h, _ => by simp at h
  | _ :: _, [], _, _, _, _, hl => by simp at hl
  | o :: os, j :: js, s, e, n, h, hl => by
    unfold place
    simp only [List.map_cons, bind]
    by_cases hn : n = o
    · simp [hn]
    · have : n ∈ os := by simpa [hn] using h
      simp only [beq_iff_eq, hn, if_false, Function.update_of_ne hn]
      exact bind_place os js s e this (by simpa using hl)

theorem kind_shift (n m : Nat) : kind (n + 3 * m) = kind n := by
  simp [kind, Nat.add_mul_mod_self_left]

variable (ten : Tens R O V X)

theorem unfoldFacs_dum (name : Nat) (ts : List (List Nat × Term)) (s : Nat)
    (hc : ∀ t ∈ ts, closed t.1 t.2 = true) :
    ∀ (fs : List Fac), ∀ r ∈ unfoldFacs name ts s fs, ∀ n ∈ r.dum, s ≤ n
  | [], r, hr, n, hn => by
    simp only [unfoldFacs, List.mem_singleton] at hr
    subst hr; simp at hn
  | f :: fs, r, hr, n, hn => by
    have ih := unfoldFacs_dum name ts s hc fs
    unfold unfoldFacs at hr
    simp only at hr
    split_ifs at hr with h
    · obtain ⟨dt, hdt, hr⟩ := List.mem_flatMap.1 hr
      obtain ⟨r', hr', rfl⟩ := List.mem_map.1 hr
      simp only [splice, List.mem_append, List.mem_map] at hn
      rcases hn with ⟨m, hm, rfl⟩ | hn
      · have : m ∉ dt.1 := by
          have := (Bool.and_eq_true _ _ ▸ hc dt hdt).2
          simpa using List.all_eq_true.1 this m hm
        rw [place_not _ _ _ this]
        omega
      · exact ih r' hr' n hn
    · obtain ⟨r', hr', rfl⟩ := List.mem_map.1 hr
      exact ih r' hr' n hn

theorem evalTerms_map_mul (ts : List Term) (e : Env O V X) (c : R) :
    c * evalTerms ten ts e = (ts.map fun t => c * t.eval ten e).sum := by
  unfold evalTerms
  rw [← List.sum_map_mul_left]

theorem splice_eval {out js : List Nat} {s : Nat} {dt r : Term} (hc : closed out dt = true)
    (hj : ∀ j ∈ js, j < 3 * s) (hl : out.length = js.length)
    (hr : ∀ n ∈ r.dum, 3 * s ≤ n) (e : Env O V X) :
    (splice out js (3 * s) dt r).eval ten e
      = dt.eval ten (bind out (js.map e)) * r.eval ten e := by
  have hc' := Bool.and_eq_true _ _ ▸ hc
  obtain ⟨hv, hd⟩ := hc'
  have hv : ∀ n ∈ vars dt.facs, n ∈ out ∨ n ∈ dt.dum := by
    intro n hn
    simpa using List.all_eq_true.1 hv n hn
  have hd : ∀ n ∈ dt.dum, n ∉ out := by
    intro n hn
    simpa using List.all_eq_true.1 hd n hn
  simp only [splice]
  generalize hu : Nat.max (top r.dum) (top (vars r.facs)) = u
  have hs : 3 * s + 3 * (1 + u) = 3 * (s + 1 + u) := by ring
  rw [hs]
  set ρ := place out js (3 * (s + 1 + u)) with hρ
  have hbig : ∀ n, n ∉ out → ρ n = n + 3 * (s + 1 + u) := fun n hn => place_not _ _ _ hn
  have h1 : sumVars dt.dum (prodFacs ten dt.facs) (bind out (js.map e))
      = sumVars (dt.dum.map ρ) (prodFacs ten (renFacs ρ dt.facs)) e := by
    rw [sumVars_rename (only_prodFacs ten dt.facs) ρ (e' := e)]
    · exact sumVars_congr (fun e => (prodFacs_ren ten ρ dt.facs e).symm) e
    · intro n hn
      rw [hbig n (hd n hn)]
      exact kind_shift n _
    · intro n hn m hm hmn h
      rw [hbig n (hd n hn)] at h
      by_cases hmo : m ∈ out
      · have := hj _ (place_out out js (3 * (s + 1 + u)) hmo hl)
        rw [← hρ] at this
        omega
      · rw [hbig m hmo] at h
        omega
    · intro m hm hm'
      have hmo : m ∈ out := (hv m hm).resolve_right hm'
      exact bind_place out js _ e hmo hl
  have h2 : sumVars (dt.dum.map ρ ++ r.dum) (prodFacs ten (renFacs ρ dt.facs ++ r.facs)) e
      = sumVars (dt.dum.map ρ) (prodFacs ten (renFacs ρ dt.facs)) e
        * sumVars r.dum (prodFacs ten r.facs) e := by
    rw [← sumVars_prod (only_prodFacs ten (renFacs ρ dt.facs)) (only_prodFacs ten r.facs)]
    · exact sumVars_congr (fun e => prodFacs_append ten _ _ e) e
    · intro n hn hn'
      rw [vars_ren] at hn'
      obtain ⟨m, hm, rfl⟩ := List.mem_map.1 hn'
      by_cases hmo : m ∈ out
      · have h3 := hj _ (place_out out js (3 * (s + 1 + u)) hmo hl)
        rw [← hρ] at h3
        exact absurd (hr _ hn) (by omega)
      · rw [hbig m hmo] at hn
        have h3 := (le_top hn).trans (Nat.le_max_left (top r.dum) (top (vars r.facs)))
        change _ ≤ Nat.max _ _ at h3
        rw [hu] at h3
        omega
    · intro n hn hn'
      obtain ⟨m, hm, rfl⟩ := List.mem_map.1 hn
      rw [hbig m (hd m hm)] at hn'
      have h3 := (le_top hn').trans (Nat.le_max_right (top r.dum) (top (vars r.facs)))
      change _ ≤ Nat.max _ _ at h3
      rw [hu] at h3
      omega
  simp only [Term.eval, Coef.val_mul, map_mul]
  rw [h2, h1]
  ring

theorem sum_flatMap' {α β : Type*} (l : List α) (f : α → List β) (g : β → R) :
    ((l.flatMap f).map g).sum = (l.map fun a => ((f a).map g).sum).sum := by
  induction l with
  | nil => rfl
  | cons a l ih => simp [ih]

/-- The tensors after one definition. -/
theorem unfoldFacs_sound (d : Def) (ts : List (List Nat × Term)) (s : Nat)
    (hc : ∀ t ∈ ts, closed t.1 t.2 = true) (e : Env O V X) :
    ∀ fs : List Fac, (∀ n ∈ vars fs, n < 3 * s) →
      (∀ f ∈ fs, f.root = d.name → ∀ t ∈ ts, t.1.length = f.idx.length) →
      evalTerms ten (unfoldFacs d.name ts (3 * s) fs) e
        = prodFacs (fun r ix => if r = d.name then evalAt ten ts ix else ten r ix) fs e
  | [], _, _ => by
    simp [unfoldFacs, evalTerms, Term.eval, sumVars, prodFacs, Coef.val]
  | f :: fs, hv, hl => by
    have ih := unfoldFacs_sound d ts s hc e fs
      (fun n hn => hv n (by simp only [vars, List.flatMap_cons, List.mem_append]; exact Or.inr hn))
      (fun g hg => hl g (List.mem_cons_of_mem _ hg))
    have hf : ∀ n ∈ f.idx, n < 3 * s := fun n hn =>
      hv n (by simp only [vars, List.flatMap_cons, List.mem_append]; exact Or.inl hn)
    have hb := unfoldFacs_dum d.name ts (3 * s) hc fs
    rw [prodFacs_cons, ← ih]
    rw [unfoldFacs]
    simp only [beq_iff_eq]
    by_cases h : f.root = d.name
    · rw [if_pos h, if_pos h]
      generalize unfoldFacs d.name ts (3 * s) fs = rest at hb ⊢
      unfold evalTerms evalAt
      rw [sum_flatMap', ← List.sum_map_mul_right]
      congr 1
      refine List.map_congr_left fun dt hdt => ?_
      rw [List.map_map, ← List.sum_map_mul_left]
      congr 1
      refine List.map_congr_left fun r hr => ?_
      exact splice_eval ten (hc dt hdt) hf (hl f (List.mem_cons_self ..) h dt hdt) (hb r hr) e
    · rw [if_neg h, if_neg h]
      generalize unfoldFacs d.name ts (3 * s) fs = rest at hb ⊢
      unfold evalTerms
      rw [List.map_map, ← List.sum_map_mul_left]
      congr 1
      refine List.map_congr_left fun r hr => ?_
      simp only [Function.comp, Term.eval]
      rw [sumVars_congr (fun e => prodFacs_cons ten f r.facs e),
        sumVars_out (S := f.idx) (f := fun e => ten f.root (f.idx.map e))]
      · ring
      · intro e e' h
        beta_reduce
        congr 1
        exact List.map_congr_left h
      · intro n hn hn'
        have := hf n hn'
        have := hb r hr n hn
        omega

/-- A term fits a statement: every factor called `d` has the number of axes of
the result. -/
def fits (d : Def) (t : Term) : Bool :=
  t.facs.all fun f => f.root != d.name || d.lines.all fun l => l.out.length == f.idx.length

theorem unfold_sound (d : Def) (hc : ∀ t ∈ d.terms, closed t.1 t.2 = true)
    (t : Term) (ht : fits d t = true) (e : Env O V X) :
    evalTerms ten (unfold d d.terms t) e = t.eval (d.run ten) e := by
  have hv : ∀ n ∈ vars t.facs, n < 3 * (1 + top (vars t.facs)) := by
    intro n hn
    have := le_top hn
    omega
  have hl : ∀ f ∈ t.facs, f.root = d.name → ∀ u ∈ d.terms, u.1.length = f.idx.length := by
    intro f hf hn u hu
    have := List.all_eq_true.1 ht f hf
    simp only [hn, bne_self_eq_false, Bool.false_or, List.all_eq_true, beq_iff_eq] at this
    obtain ⟨l, hl, rfl⟩ := List.mem_map.1 hu
    exact this l hl
  unfold unfold
  unfold evalTerms
  rw [List.map_map]
  have h1 : ∀ r : Term, (Term.eval ten ⟨t.coef.mul r.coef, t.dum ++ r.dum, r.facs⟩ e)
      = algebraMap ℚ R t.coef.val * sumVars t.dum (fun e => r.eval ten e) e := by
    intro r
    simp only [Term.eval, Coef.val_mul, map_mul]
    rw [sumVars_append, sumVars_mul]
    ring
  simp only [Function.comp_def, h1]
  rw [List.sum_map_mul_left]
  unfold Term.eval
  congr 1
  have h2 : ∀ (rs : List Term), (rs.map fun r => sumVars t.dum (fun e => r.eval ten e) e).sum
      = sumVars t.dum (evalTerms ten rs) e := by
    intro rs
    induction rs with
    | nil => exact (sumVars_zero t.dum e).symm
    | cons r rs ih =>
      rw [List.map_cons, List.sum_cons, ih, ← sumVars_add]
      exact sumVars_congr (fun e => by simp [evalTerms]) e
  have h3 := h2 (unfoldFacs d.name d.terms (3 * (1 + top (vars t.facs))) t.facs)
  unfold Term.eval at h3
  rw [h3]
  exact sumVars_congr (fun e => unfoldFacs_sound ten d d.terms _ hc e t.facs hv hl) e

/-- Expansion with the checks it needs. -/
def expandOk : List Def → List Term → Option (List Term)
  | [], ts => some ts
  | d :: ds, ts =>
    match expandOk ds ts with
    | none => none
    | some us =>
      let dt := d.terms
      match dt.all (fun t => closed t.1 t.2) && us.all (fits d) with
      | true => some (us.flatMap (unfold d dt))
      | false => none

/-- The terms after expansion, on the input tensors, have the value of the
original terms on the tensors of the program. -/
theorem expand_sound : ∀ (ds : List Def) (ten : Tens R O V X) (ts : List Term) {us : List Term}
    (e : Env O V X), expandOk ds ts = some us →
      evalTerms (run ds ten) ts e = evalTerms ten us e
  | [], _, _, _, _, h => by
    simp only [expandOk, Option.some.injEq] at h
    subst h
    rfl
  | d :: ds, ten, ts, us, e, h => by
    unfold expandOk at h
    split at h
    · simp at h
    rename_i vs hv
    simp only at h
    split at h
    · rename_i hb
      simp only [Bool.and_eq_true, List.all_eq_true] at hb
      obtain ⟨hc, hf⟩ := hb
      simp only [Option.some.injEq] at h
      subst h
      have := expand_sound ds (d.run ten) ts e hv
      simp only [run]
      rw [this]
      conv_rhs => unfold evalTerms
      rw [sum_flatMap']
      conv_lhs => unfold evalTerms
      congr 1
      refine List.map_congr_left fun t ht => ?_
      exact (unfold_sound ten d hc t (hf t ht) e).symm
    · simp at h

/-! ### Normal form of a product -/

/-- A symmetry of a tensor: sign and order of the axes. -/
structure Sym where
  sign : Int
  perm : List Nat
  deriving DecidableEq, Repr

/-- Axes `ix` in the order `p`. -/
def permute {α : Type*} (z : α) (p : List Nat) (ix : List α) : List α :=
  p.map fun k => ix.getD k z

/-- The tensors have the symmetries `sym`. -/
def Respects (sym : Nat → List Sym) (ten : Tens R O V X) : Prop :=
  ∀ r, ∀ s ∈ sym r, ∀ ix : List (Idx O V X), ix.length = s.perm.length →
    ten r ix = (s.sign : R) * ten r (permute .none s.perm ix)

/-- How to order the factors (every entry a position in the list of those
left) and which symmetry to use for each. -/
abbrev Cert := List (Nat × Nat)

/-- Factors reordered and permuted by the certificate, and the sign. -/
def arrange (sym : Nat → List Sym) : Cert → List Fac → Option (Int × List Fac)
  | [], [] => some (1, [])
  | (k, j) :: cs, fs =>
    match fs[k]? with
    | none => none
    | some f =>
      match (sym f.root)[j]? with
      | none => none
      | some s =>
        match Nat.beq f.idx.length s.perm.length && s.perm.all fun k => Nat.blt k f.idx.length with
        | false => none
        | true =>
          match arrange sym cs (fs.eraseIdx k) with
          | none => none
          | some (q, gs) => some (s.sign * q, ⟨f.root, permute 0 s.perm f.idx⟩ :: gs)
  | _, _ => none

theorem prodFacs_perm {fs gs : List Fac} (h : fs.Perm gs) (e : Env O V X) :
    prodFacs ten fs e = prodFacs ten gs e :=
  (h.map _).prod_eq

theorem arrange_sound {sym : Nat → List Sym} (hs : Respects sym ten) :
    ∀ (cs : Cert) (fs : List Fac) {q : Int} {gs : List Fac}, arrange sym cs fs = some (q, gs) →
      ∀ e, prodFacs ten fs e = (q : R) * prodFacs ten gs e
  | [], [], q, gs, h, e => by
    simp only [arrange, Option.some.injEq, Prod.mk.injEq] at h
    obtain ⟨rfl, rfl⟩ := h
    simp [prodFacs]
  | [], _ :: _, q, gs, h, e => by simp [arrange] at h
  | (k, j) :: cs, fs, q, gs, h, e => by
    unfold arrange at h
    split at h
    · simp at h
    rename_i f hf
    split at h
    · simp at h
    rename_i s hsj
    split at h
    · simp at h
    rename_i hb
    split at h
    · simp at h
    rename_i q' gs' hr
    simp only [Option.some.injEq, Prod.mk.injEq] at h
    obtain ⟨rfl, rfl⟩ := h
    obtain ⟨hk, rfl⟩ := List.getElem?_eq_some_iff.1 hf
    rw [prodFacs_perm ten (List.getElem_cons_eraseIdx_perm hk).symm, prodFacs_cons, prodFacs_cons,
      arrange_sound hs cs _ hr]
    simp only [Bool.and_eq_true, Nat.beq_eq, List.all_eq_true] at hb
    obtain ⟨hl, hb⟩ := hb
    have h1 := hs _ s (List.mem_of_getElem? hsj) (fs[k].idx.map e) (by simpa using hl)
    have h2 : permute .none s.perm (fs[k].idx.map e) = (permute 0 s.perm fs[k].idx).map e := by
      unfold permute
      rw [List.map_map]
      refine List.map_congr_left fun m hm => ?_
      have hm : m < fs[k].idx.length := by simpa using hb m hm
      simp [List.getD_eq_getElem?_getD, hm]
    rw [h1, h2, Int.cast_mul]
    ring

/-- Whether a letter occurs. -/
def has (n : Nat) : List Nat → Bool
  | [] => false
  | m :: ms =>
    match Nat.beq n m with
    | true => true
    | false => has n ms

theorem has_iff (n : Nat) : ∀ ms : List Nat, has n ms = true ↔ n ∈ ms
  | [] => by simp [has]
  | m :: ms => by
    unfold has
    split
    · rename_i h
      rw [Nat.beq_eq] at h
      simp [h]
    · rename_i h
      have h1 : n ≠ m := by
        intro hh
        rw [← Nat.beq_eq, h] at hh
        simp at hh
      rw [has_iff n ms]
      simp [h1]

/-- Letters in the order of their first occurrence, without those below `b`. -/
def firsts (b : Nat) : List Nat → List Nat → List Nat
  | acc, [] => acc.reverse
  | acc, n :: ns =>
    match Nat.blt n b || has n acc with
    | true => firsts b acc ns
    | false => firsts b (n :: acc) ns

theorem firsts_nodup (b : Nat) : ∀ (acc ns : List Nat), acc.Nodup → (firsts b acc ns).Nodup
  | acc, [], h => by simpa [firsts] using h
  | acc, n :: ns, h => by
    unfold firsts
    split
    · exact firsts_nodup b acc ns h
    · rename_i hc
      refine firsts_nodup b _ ns (List.nodup_cons.2 ⟨?_, h⟩)
      simp only [Bool.or_eq_false_iff] at hc
      intro hh
      rw [← has_iff, hc.2] at hh
      simp at hh

/-- New name of a letter: the letters of `ds` are numbered from `k`. -/
def ren : List Nat → Nat → Nat → Nat
  | [], _, n => n
  | d :: ds, k, n =>
    match Nat.beq n d with
    | true => 3 * k + n % 3
    | false => ren ds (k + 1) n

theorem ren_not : ∀ (ds : List Nat) (k : Nat) {n : Nat}, n ∉ ds → ren ds k n = n
  | [], _, _, _ => rfl
  | d :: ds, k, n, h => by
    unfold ren
    have h1 : n ≠ d := fun hh => h (hh ▸ List.mem_cons_self ..)
    have : Nat.beq n d = false := by
      rw [← Bool.not_eq_true, Nat.beq_eq]; exact h1
    rw [this]
    exact ren_not ds (k + 1) fun hh => h (List.mem_cons_of_mem _ hh)

theorem ren_ge : ∀ (ds : List Nat) (k : Nat) {n : Nat}, n ∈ ds → 3 * k ≤ ren ds k n
  | [], _, _, h => by simp at h
  | d :: ds, k, n, h => by
    unfold ren
    split
    · omega
    · rename_i hb
      have h1 : n ≠ d := by
        intro hh
        rw [← Nat.beq_eq, hb] at hh
        simp at hh
      have := ren_ge ds (k + 1) (n := n) (by simpa [h1] using h)
      omega

theorem ren_kind : ∀ (ds : List Nat) (k n : Nat), kind (ren ds k n) = kind n
  | [], _, _ => rfl
  | d :: ds, k, n => by
    unfold ren
    split
    · unfold kind
      have : (3 * k + n % 3) % 3 = n % 3 := by omega
      rw [this]
    · exact ren_kind ds (k + 1) n

theorem ren_inj : ∀ (ds : List Nat) (k : Nat) {n m : Nat}, n ∈ ds → m ∈ ds → m ≠ n →
    ren ds k m ≠ ren ds k n
  | [], _, _, _, h, _, _ => by simp at h
  | d :: ds, k, n, m, hn, hm, hmn => by
    unfold ren
    by_cases h1 : n = d
    · by_cases h2 : m = d
      · exact absurd (h2.trans h1.symm) hmn
      · have e1 : Nat.beq n d = true := by rw [Nat.beq_eq]; exact h1
        have e2 : Nat.beq m d = false := by rw [← Bool.not_eq_true, Nat.beq_eq]; exact h2
        rw [e1, e2]
        have := ren_ge ds (k + 1) (n := m) (by simpa [h2] using hm)
        show ren ds (k + 1) m ≠ 3 * k + n % 3
        omega
    · have e1 : Nat.beq n d = false := by rw [← Bool.not_eq_true, Nat.beq_eq]; exact h1
      have hn' : n ∈ ds := by simpa [h1] using hn
      by_cases h2 : m = d
      · have e2 : Nat.beq m d = true := by rw [Nat.beq_eq]; exact h2
        rw [e1, e2]
        have := ren_ge ds (k + 1) (n := n) hn'
        show 3 * k + m % 3 ≠ ren ds (k + 1) n
        omega
      · have e2 : Nat.beq m d = false := by rw [← Bool.not_eq_true, Nat.beq_eq]; exact h2
        rw [e1, e2]
        exact ren_inj ds (k + 1) hn' (by simpa [h2] using hm) hmn

/-- Normal form: sign, letters summed over, factors.  Letters below `b` are those
of the result, new letters start at `3*(b+1)`. -/
def normal (sym : Nat → List Sym) (b : Nat) (c : Cert) (t : Term) :
    Option (Int × List Nat × List Fac) :=
  match arrange sym c t.facs with
  | none => none
  | some (q, gs) =>
    let ds := firsts b [] (vars gs)
    match Nat.beq ds.length t.dum.length && ds.all fun n => has n t.dum with
    | false => none
    | true => some (q, ds.map (ren ds (b + 1)), renFacs (ren ds (b + 1)) gs)

theorem firsts_mem (b : Nat) : ∀ (acc ns : List Nat) {n : Nat}, (n ∈ acc ∨ n ∈ ns) →
    n ∈ firsts b acc ns ∨ n < b ∨ n ∈ acc
  | acc, [], n, h => by
    have : n ∈ acc := by simpa using h
    exact Or.inr (Or.inr this)
  | acc, m :: ns, n, h => by
    unfold firsts
    split
    · rename_i hc
      simp only [Bool.or_eq_true] at hc
      rcases h with h | h
      · exact Or.inr (Or.inr h)
      · rcases List.mem_cons.1 h with rfl | h
        · rcases hc with hc | hc
          · exact Or.inr (Or.inl (by simpa using hc))
          · exact Or.inr (Or.inr ((has_iff _ _).1 hc))
        · exact firsts_mem b acc ns (Or.inr h)
    · rcases firsts_mem b (m :: acc) ns (n := n)
        (h.elim (fun h => Or.inl (List.mem_cons_of_mem _ h)) fun h => by
          rcases List.mem_cons.1 h with rfl | h
          · exact Or.inl (List.mem_cons_self ..)
          · exact Or.inr h) with h | h | h
      · exact Or.inl h
      · exact Or.inr (Or.inl h)
      · rcases List.mem_cons.1 h with rfl | h
        · exact Or.inl (firsts_acc b _ ns (List.mem_cons_self ..))
        · exact Or.inr (Or.inr h)
where
  firsts_acc (b : Nat) : ∀ (acc ns : List Nat) {n : Nat}, n ∈ acc → n ∈ firsts b acc ns
    | acc, [], n, h => by simpa [firsts] using h
    | acc, m :: ns, n, h => by
      unfold firsts
      split
      · exact firsts_acc b acc ns h
      · exact firsts_acc b _ ns (List.mem_cons_of_mem _ h)

theorem normal_sound {sym : Nat → List Sym} (hs : Respects sym ten) {b : Nat} {c : Cert}
    {t : Term} {q : Int} {ds : List Nat} {gs : List Fac} (h : normal sym b c t = some (q, ds, gs))
    (e : Env O V X) :
    sumVars t.dum (prodFacs ten t.facs) e = (q : R) * sumVars ds (prodFacs ten gs) e := by
  unfold normal at h
  split at h
  · simp at h
  rename_i q' gs' ha
  simp only at h
  split at h
  · simp at h
  rename_i hp
  simp only [Option.some.injEq, Prod.mk.injEq] at h
  obtain ⟨rfl, rfl, rfl⟩ := h
  have hn := firsts_nodup b [] (vars gs') (by simp)
  simp only [Bool.and_eq_true, Nat.beq_eq, List.all_eq_true] at hp
  have hp : (firsts b [] (vars gs')).Perm t.dum :=
    (hn.subperm fun n hn => (has_iff _ _).1 (hp.2 n hn)).perm_of_length_le (le_of_eq hp.1.symm)
  have hm : ∀ n ∈ vars gs', n ∈ firsts b [] (vars gs') ∨ n < b := by
    intro n hn
    rcases firsts_mem b [] (vars gs') (Or.inr hn) with h | h | h
    · exact Or.inl h
    · exact Or.inr h
    · simp at h
  generalize hds : firsts b [] (vars gs') = ds at *
  rw [sumVars_congr (fun e => arrange_sound ten hs c t.facs ha e), sumVars_mul,
    ← sumVars_perm hp hn]
  congr 1
  rw [sumVars_rename (only_prodFacs ten gs') (ren ds (b + 1)) (e' := e)]
  · exact sumVars_congr (fun e => (prodFacs_ren ten _ gs' e).symm) e
  · intro n _
    exact ren_kind ds _ n
  · intro n hn m hm' hmn
    by_cases hmd : m ∈ ds
    · exact ren_inj ds _ hn hmd hmn
    · rw [ren_not ds _ hmd]
      have h1 := ren_ge ds (b + 1) hn
      have h2 : m < b := (hm m (hm'.resolve_right hmd)).resolve_left hmd
      omega
  · intro m _ hmd
    rw [ren_not ds _ hmd]

/-! ### Collecting like products -/

/-- A product as a list of digits: tensors are digits from 256 on. -/
def digits : List Fac → List Nat
  | [] => []
  | f :: fs => (256 + f.root) :: (f.idx ++ digits fs)

/-- Tensors and letters fit into the digits. -/
def small (fs : List Fac) : Bool :=
  fs.all fun f => Nat.blt f.root 256 && f.idx.all fun n => Nat.blt n 256

/-- Number with given digits, after `k`. -/
def number : Nat → List Nat → Nat
  | k, [] => k
  | k, d :: ds => number (512 * k + d) ds

theorem number_append (k : Nat) (ds : List Nat) (d : Nat) :
    number k (ds ++ [d]) = 512 * number k ds + d := by
  induction ds generalizing k with
  | nil => rfl
  | cons c cs ih => exact ih _

theorem number_pos (k : Nat) (ds : List Nat) (hk : 0 < k) : 0 < number k ds := by
  induction ds generalizing k with
  | nil => exact hk
  | cons d ds ih => exact ih _ (by omega)

theorem number_ge (ds : List Nat) (k : Nat) : k ≤ number k ds := by
  induction ds generalizing k with
  | nil => exact le_rfl
  | cons d ds ih => exact le_trans (by omega) (ih _)

theorem number_inj : ∀ (n : Nat) (ds es : List Nat), ds.length = n → (∀ d ∈ ds, d < 512) →
    (∀ d ∈ es, d < 512) → number 1 ds = number 1 es → ds = es
  | 0, ds, es, hn, _, he, h => by
    have : ds = [] := List.length_eq_zero_iff.1 hn
    subst this
    rcases List.eq_nil_or_concat es with rfl | ⟨fs, f, rfl⟩
    · rfl
    · exfalso
      rw [List.concat_eq_append, number_append] at h
      have := number_ge fs 1
      simp only [number] at h
      omega
  | n + 1, ds, es, hn, hd, he, h => by
    rcases List.eq_nil_or_concat ds with rfl | ⟨fs, f, rfl⟩
    · simp at hn
    rcases List.eq_nil_or_concat es with rfl | ⟨gs, g, rfl⟩
    · exfalso
      rw [List.concat_eq_append, number_append] at h
      have := number_ge fs 1
      simp only [number] at h
      omega
    · rw [List.concat_eq_append] at *
      rw [List.concat_eq_append] at *
      rw [number_append, number_append] at h
      have h1 : f < 512 := hd f (by simp)
      have h2 : g < 512 := he g (by simp)
      have h3 : f = g := by omega
      have h4 : number 1 fs = number 1 gs := by omega
      rw [h3, number_inj n fs gs (by simpa using hn) (fun d hd' => hd d (by simp [hd']))
        (fun d hd' => he d (by simp [hd'])) h4]

theorem small_iff (fs : List Fac) :
    small fs = true ↔ ∀ f ∈ fs, f.root < 256 ∧ ∀ n ∈ f.idx, n < 256 := by
  simp [small]

theorem digits_small {fs : List Fac} (h : small fs = true) : ∀ d ∈ digits fs, d < 512 := by
  rw [small_iff] at h
  induction fs with
  | nil => simp [digits]
  | cons f fs ih =>
    intro d hd
    simp only [digits, List.mem_cons, List.mem_append] at hd
    have h1 := h f (List.mem_cons_self ..)
    rcases hd with rfl | hd | hd
    · omega
    · have := h1.2 d hd
      omega
    · exact ih (fun g hg => h g (List.mem_cons_of_mem _ hg)) d hd

theorem append_cut {a b x y : List Nat} (ha : ∀ n ∈ a, n < 256) (hb : ∀ n ∈ b, n < 256)
    (hx : ∀ n, x.head? = some n → 256 ≤ n) (hy : ∀ n, y.head? = some n → 256 ≤ n)
    (h : a ++ x = b ++ y) : a = b ∧ x = y := by
  induction a generalizing b with
  | nil =>
    cases b with
    | nil => exact ⟨rfl, h⟩
    | cons c b =>
      simp only [List.nil_append, List.cons_append] at h
      have := hx c (by rw [h]; rfl)
      have := hb c (List.mem_cons_self ..)
      omega
  | cons d a ih =>
    cases b with
    | nil =>
      simp only [List.nil_append, List.cons_append] at h
      have := hy d (by rw [← h]; rfl)
      have := ha d (List.mem_cons_self ..)
      omega
    | cons c b =>
      simp only [List.cons_append, List.cons.injEq] at h
      obtain ⟨rfl, h⟩ := h
      obtain ⟨rfl, h2⟩ := ih (fun n hn => ha n (List.mem_cons_of_mem _ hn))
        (fun n hn => hb n (List.mem_cons_of_mem _ hn)) h
      exact ⟨rfl, h2⟩

theorem digits_head (fs : List Fac) : ∀ n, (digits fs).head? = some n → 256 ≤ n := by
  intro n hn
  cases fs with
  | nil => simp [digits] at hn
  | cons f fs =>
    simp only [digits, List.head?_cons, Option.some.injEq] at hn
    omega

theorem digits_inj : ∀ {fs gs : List Fac}, small fs = true → small gs = true →
    digits fs = digits gs → fs = gs
  | [], [], _, _, _ => rfl
  | [], _ :: _, _, _, h => by simp [digits] at h
  | _ :: _, [], _, _, h => by simp [digits] at h
  | f :: fs, g :: gs, h1, h2, h => by
    rw [small_iff] at h1 h2
    simp only [digits, List.cons.injEq] at h
    obtain ⟨hr, h⟩ := h
    obtain ⟨hi, h⟩ := append_cut (h1 f (List.mem_cons_self ..)).2
      (h2 g (List.mem_cons_self ..)).2 (digits_head fs) (digits_head gs) h
    have hfg : f = g := by
      cases f; cases g
      simp only [Fac.mk.injEq] at *
      exact ⟨by omega, hi⟩
    rw [hfg, digits_inj ((small_iff _).2 fun k hk => h1 k (List.mem_cons_of_mem _ hk))
      ((small_iff _).2 fun k hk => h2 k (List.mem_cons_of_mem _ hk)) h]

/-- Number of a product. -/
def code (fs : List Fac) : Nat := number 1 (digits fs)

theorem code_inj {fs gs : List Fac} (h1 : small fs = true) (h2 : small gs = true)
    (h : code fs = code gs) : fs = gs :=
  digits_inj h1 h2 (number_inj _ _ _ rfl (digits_small h1) (digits_small h2) h)

/-- Numbers with coefficients. -/
inductive Tree
  | leaf
  | node (l : Tree) (code : Nat) (coef : Int) (r : Tree)

/-- Value of a tree for given values of the numbers. -/
def Tree.eval (v : Nat → R) : Tree → R
  | .leaf => 0
  | .node l k c r => l.eval v + (c : R) * v k + r.eval v

/-- A number added. -/
def Tree.insert (k : Nat) (c : Int) : Tree → Tree
  | .leaf => .node .leaf k c .leaf
  | .node l k' c' r =>
    match Nat.beq k k' with
    | true => .node l k' (c + c') r
    | false =>
      match Nat.blt k k' with
      | true => .node (Tree.insert k c l) k' c' r
      | false => .node l k' c' (Tree.insert k c r)

omit [Algebra ℚ R] in
theorem Tree.insert_sound (v : Nat → R) (k : Nat) (c : Int) : ∀ t : Tree,
    (t.insert k c).eval v = t.eval v + (c : R) * v k
  | .leaf => by simp [Tree.insert, Tree.eval]
  | .node l k' c' r => by
    unfold Tree.insert
    split
    · rename_i h
      rw [Nat.beq_eq] at h
      subst h
      simp only [Tree.eval, Int.cast_add]
      ring
    · split
      · simp only [Tree.eval, Tree.insert_sound v k c l]
        ring
      · simp only [Tree.eval, Tree.insert_sound v k c r]
        ring

/-- All coefficients are zero. -/
def Tree.null : Tree → Bool
  | .leaf => true
  | .node l _ c r => l.null && decide (c = 0) && r.null

omit [Algebra ℚ R] in
theorem Tree.null_sound (v : Nat → R) : ∀ {t : Tree}, t.null = true → t.eval v = 0
  | .leaf, _ => rfl
  | .node l k c r, h => by
    simp only [Tree.null, Bool.and_eq_true, decide_eq_true_eq] at h
    obtain ⟨⟨h1, h2⟩, h3⟩ := h
    simp [Tree.eval, Tree.null_sound v h1, Tree.null_sound v h3, h2]

/-- Coefficient over the common denominator `2 ^ 12`. -/
def scaled (c : Coef) : Option Int :=
  match Nat.ble c.half 12 with
  | true => some (c.num * (2 ^ (12 - c.half) : Nat))
  | false => none

theorem scaled_sound {c : Coef} {z : Int} (h : scaled c = some z) : (z : ℚ) = 2 ^ 12 * c.val := by
  unfold scaled at h
  split at h
  · rename_i hb
    have hb : c.half ≤ 12 := by simpa using hb
    simp only [Option.some.injEq] at h
    subst h
    unfold Coef.val
    obtain ⟨k, hk⟩ := Nat.exists_eq_add_of_le hb
    have h1 : 12 - c.half = k := by omega
    rw [h1, hk]
    push_cast
    rw [pow_add]
    field_simp
  · simp at h

/-- Collects the products. -/
def collect (sym : Nat → List Sym) (b : Nat) : List Cert → List Term → Tree → Option Tree
  | [], [], a => some a
  | c :: cs, t :: ts, a =>
    match normal sym b c t with
    | none => none
    | some (q, ds, fs) =>
      match small fs && ds == firsts b [] (vars fs) with
      | false => none
      | true =>
        match scaled t.coef with
        | none => none
        | some z =>
          match code fs with
          | 0 => none
          | k + 1 => collect sym b cs ts (a.insert (k + 1) (z * q))
  | _, _, _ => none

open Classical in
/-- Value of the product with a given number. -/
noncomputable def valueOf (b : Nat) (e : Env O V X) (k : Nat) : R :=
  if h : ∃ fs : List Fac, small fs = true ∧ code fs = k then
    sumVars (firsts b [] (vars h.choose)) (prodFacs ten h.choose) e
  else 0

theorem valueOf_code (b : Nat) (e : Env O V X) {fs : List Fac} (h : small fs = true) :
    valueOf ten b e (code fs) = sumVars (firsts b [] (vars fs)) (prodFacs ten fs) e := by
  have hx : ∃ gs : List Fac, small gs = true ∧ code gs = code fs := ⟨fs, h, rfl⟩
  unfold valueOf
  rw [dif_pos hx, code_inj hx.choose_spec.1 h hx.choose_spec.2]

theorem collect_sound {sym : Nat → List Sym} (hs : Respects sym ten) (b : Nat)
    (e : Env O V X) : ∀ (cs : List Cert) (ts : List Term) {a a' : Tree},
      collect sym b cs ts a = some a' →
        a'.eval (valueOf ten b e) = a.eval (valueOf ten b e) + 2 ^ 12 * evalTerms ten ts e
  | [], [], a, a', h => by
    simp only [collect, Option.some.injEq] at h
    subst h
    simp [evalTerms]
  | [], _ :: _, a, a', h => by simp [collect] at h
  | _ :: _, [], a, a', h => by simp [collect] at h
  | c :: cs, t :: ts, a, a', h => by
    unfold collect at h
    split at h
    · simp at h
    rename_i q ds fs hn
    split at h
    · simp at h
    rename_i hsm
    split at h
    · simp at h
    rename_i z hz
    split at h
    · simp at h
    rename_i k hk
    have hk : code fs = k + 1 := hk
    simp only [Bool.and_eq_true, beq_iff_eq] at hsm
    rw [collect_sound hs b e cs ts h, Tree.insert_sound, ← hk, valueOf_code ten b e hsm.1,
      ← hsm.2]
    have h1 : t.eval ten e = algebraMap ℚ R t.coef.val * ((q : R) *
        sumVars ds (prodFacs ten fs) e) := by
      rw [← normal_sound ten hs hn e]; rfl
    have h2 : ((z : Int) : R) = 2 ^ 12 * algebraMap ℚ R t.coef.val := by
      have := congrArg (algebraMap ℚ R) (scaled_sound hz)
      rwa [map_mul, map_pow, map_ofNat, map_intCast] at this
    simp only [evalTerms, List.map_cons, List.sum_cons]
    rw [h1, Int.cast_mul, h2]
    ring

/-- A term with the opposite sign. -/
def Term.neg (t : Term) : Term := ⟨⟨-t.coef.num, t.coef.half⟩, t.dum, t.facs⟩

theorem evalTerms_neg (ts : List Term) (e : Env O V X) :
    evalTerms ten (ts.map Term.neg) e = -evalTerms ten ts e := by
  induction ts with
  | nil => simp [evalTerms]
  | cons t ts ih =>
    simp only [evalTerms, List.map_cons, List.sum_cons] at ih ⊢
    rw [ih]
    simp only [Term.eval, Term.neg, Coef.val, Int.cast_neg, neg_div, map_neg]
    ring

theorem evalTerms_append (ts us : List Term) (e : Env O V X) :
    evalTerms ten (ts ++ us) e = evalTerms ten ts e + evalTerms ten us e := by
  simp [evalTerms]

/-- The two lists of terms, on two programs, have the same value. -/
def check (sym : Nat → List Sym) (b : Nat) (cs : List Cert) (p q : List Def)
    (ts us : List Term) : Bool :=
  match expandOk p ts, expandOk q us with
  | some ts, some us =>
    match collect sym b cs (ts ++ us.map Term.neg) .leaf with
    | none => false
    | some a => a.null
  | _, _ => false

/-- A successful check proves the equality for all tensors with the symmetries. -/
theorem check_sound {sym : Nat → List Sym} (hs : Respects sym ten) {b : Nat} {cs : List Cert}
    {p q : List Def} {ts us : List Term} (h : check sym b cs p q ts us = true)
    (e : Env O V X) : evalTerms (run p ten) ts e = evalTerms (run q ten) us e := by
  unfold check at h
  split at h
  rotate_left
  · simp at h
  rename_i ts' us' h1 h2
  split at h
  · simp at h
  rename_i a ha
  have h3 := h
  have h4 := collect_sound ten hs b e _ _ ha
  rw [Tree.null_sound _ h3, evalTerms_append, evalTerms_neg] at h4
  rw [expand_sound p ten ts e h1, expand_sound q ten us e h2]
  simp only [Tree.eval, zero_add] at h4
  have h5 : (algebraMap ℚ R (2 ^ 12)⁻¹) * (2 ^ 12) = 1 := by
    have : (2 ^ 12 : R) = algebraMap ℚ R (2 ^ 12) := by rw [map_pow, map_ofNat]
    rw [this, ← map_mul]
    norm_num
  have h6 := congrArg (fun x => algebraMap ℚ R (2 ^ 12)⁻¹ * x) h4
  simp only [mul_zero, ← mul_assoc, h5, one_mul] at h6
  exact sub_eq_zero.1 (by rw [sub_eq_add_neg]; exact h6.symm)

end

end OpenMS.Einsum
