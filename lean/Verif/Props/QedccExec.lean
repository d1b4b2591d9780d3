/-
The residuals of QED-CCSD run without error and read only the amplitudes of the truncation.
-/
import Verif.Model.QedccExec
import Verif.Lemmas.QedccMin
import Verif.Lemmas.EinsumBlock

namespace OpenMS.Qedcc

open Einsum

variable {R O V X : Type*} [CommRing R] [Algebra ℚ R] [Fintype O] [Fintype V] [Fintype X]

/-- Arrays known after a program. -/
def trace : List Def → List Shape → Option (List Shape)
  | [], known => some known
  | d :: ds, known =>
    if d.lines.all (runs known (axesOf d)) then trace ds ((d.name, axesOf d) :: known) else none

theorem exec_eq : ∀ (p : List Def) (known : List Shape) (ten : Tens R O V X),
    exec p (known, ten) = (trace p known).map fun k => (k, run p ten)
  | [], known, ten => rfl
  | d :: ds, known, ten => by
    unfold exec trace
    split_ifs
    · rw [exec_eq ds]
      rfl
    · rfl

theorem available_min (full : Bool) (n1 n2 k : Nat) (h : 1 < k) (u2 : Bool) :
    available full n1 n2 u2 = available full (min n1 k) (min n2 2) u2 := by
  unfold available
  have h0 : 0 < k := by omega
  simp [h, h0]

/-- A check of a program for all truncations. -/
theorem trace_all {full : Bool} {P : Nat → Nat → Bool → List Def}
    (hP : ∀ n1 n2 u2, P n1 n2 u2 = P (min n1 2) (min n2 2) u2)
    (h : ∀ u2 : Bool, (trace (P 1 1 u2) (available full 1 1 u2)).isSome
      ∧ (trace (P 1 2 u2) (available full 1 2 u2)).isSome ∧ (trace (P 2 1 u2) (available full 2 1 u2)).isSome
      ∧ (trace (P 2 2 u2) (available full 2 2 u2)).isSome) {n1 n2 : Nat} (h1 : 0 < n1) (h2 : 0 < n2)
    (u2 : Bool) : (trace (P n1 n2 u2) (available full n1 n2 u2)).isSome := by
  rw [hP, available_min full n1 n2 2 (by omega)]
  obtain ⟨a, b, c, d⟩ := h u2
  rcases (by omega : min n1 2 = 1 ∨ min n1 2 = 2) with e | e <;>
    rcases (by omega : min n2 2 = 1 ∨ min n2 2 = 2) with e' | e' <;> rw [e, e'] <;> assumption

theorem exec_of_trace {p : List Def} {known : List Shape} (h : (trace p known).isSome)
    (ten : Tens R O V X) : ∃ k, exec p (known, ten) = some (k, run p ten) := by
  obtain ⟨k, hk⟩ := Option.isSome_iff_exists.1 h
  exact ⟨k, by rw [exec_eq, hk]; rfl⟩

/-- The programs of the unoptimised file. -/
def refPrograms (n1 n2 : Nat) (u2 : Bool) : List (List Def) :=
  [refT1 n1 n2 u2, refT2 n1 n2 u2, refS n1 n2 u2, refU1 n1 n2 u2, refU2 n1 n2 u2,
    singleU1 n1 n2 u2, singleU2 n1 n2 u2]

set_option maxRecDepth 100000 in
theorem ref_trace {n1 n2 : Nat} (h1 : 0 < n1) (h2 : 0 < n2) (u2 : Bool) {p : List Def}
    (hp : p ∈ refPrograms n1 n2 u2) : (trace p (available true n1 n2 u2)).isSome := by
  simp only [refPrograms, List.mem_cons, List.not_mem_nil, or_false] at hp
  rcases hp with rfl | rfl | rfl | rfl | rfl | rfl | rfl
  · exact trace_all refT1_min (by decide +kernel) h1 h2 u2
  · exact trace_all refT2_min (by decide +kernel) h1 h2 u2
  · exact trace_all refS_min (by decide +kernel) h1 h2 u2
  · exact trace_all refU1_min (by decide +kernel) h1 h2 u2
  · exact trace_all refU2_min (by decide +kernel) h1 h2 u2
  · exact trace_all singleU1_min (by decide +kernel) h1 h2 u2
  · have h : ∀ u2 : Bool, ∀ a : Fin 4, ∀ b : Fin 3, 0 < a.1 → 0 < b.1 →
        (trace (singleU2 a.1 b.1 u2) (available true a.1 b.1 u2)).isSome := by decide +kernel
    rw [singleU2_min, available_min true n1 n2 3 (by omega)]
    exact h u2 ⟨min n1 3, by omega⟩ ⟨min n2 2, by omega⟩ (by simp; omega) (by simp; omega)

/-- Given all sixteen blocks of the integrals the functions of the unoptimised file run without error,
apart from `eps_vir + w`. -/
theorem ref_runs_partial {n1 n2 : Nat} (h1 : 0 < n1) (h2 : 0 < n2) (u2 : Bool) (t : Inputs R O V X)
    {p : List Def} (hp : p ∈ refPrograms n1 n2 u2) :
    ∃ k, exec p (available true n1 n2 u2, t.ten) = some (k, run p t.ten) :=
  exec_of_trace (ref_trace h1 h2 u2 hp) _

theorem trace_none_all {full : Bool} {P : Nat → Nat → Bool → List Def}
    (hP : ∀ n1 n2 u2, P n1 n2 u2 = P (min n1 2) (min n2 2) u2)
    (h : ∀ (u2 : Bool) (a b : Fin 3), 0 < b.1 → trace (P a.1 b.1 u2) (available full a.1 b.1 u2) = none)
    {n1 n2 : Nat} (h2 : 0 < n2) (u2 : Bool) :
    trace (P n1 n2 u2) (available full n1 n2 u2) = none := by
  rw [hP, available_min full n1 n2 2 (by omega)]
  exact h u2 ⟨min n1 2, by omega⟩ ⟨min n2 2, by omega⟩ (by simp; omega)

set_option maxRecDepth 100000 in
/-- With the integrals that the photon object makes, the functions of the unoptimised file raise for
every truncation: they read blocks that `two_e_blocks` does not have. -/
theorem ref_runs_fails (n1 : Nat) {n2 : Nat} (h2 : 0 < n2) (u2 : Bool) (t : Inputs R O V X)
    {p : List Def} (hp : p ∈ [refT1 n1 n2 u2, refT2 n1 n2 u2, refU1 n1 n2 u2, singleU1 n1 n2 u2]) :
    exec p (available false n1 n2 u2, t.ten) = none := by
  have h : trace p (available false n1 n2 u2) = none := by
    simp only [List.mem_cons, List.not_mem_nil, or_false] at hp
    rcases hp with rfl | rfl | rfl | rfl
    · exact trace_none_all refT1_min (by decide +kernel) h2 u2
    · exact trace_none_all refT2_min (by decide +kernel) h2 u2
    · exact trace_none_all refU1_min (by decide +kernel) h2 u2
    · exact trace_none_all singleU1_min (by decide +kernel) h2 u2
  rw [exec_eq, h]
  rfl

/-- The programs of the optimised file; all but the first use the intermediates. -/
def optPrograms (n1 n2 : Nat) (u2 : Bool) : List (List Def) :=
  [optT n1 n2 u2, imdsBuild n1 n2 u2 ++ optS n1 n2 u2, imdsBuild n1 n2 u2 ++ optU1 n1 n2 u2,
    imdsBuild n1 n2 u2 ++ optU2 n1 n2 u2]

set_option maxRecDepth 100000 in
theorem opt_trace {n1 n2 : Nat} (h1 : 0 < n1) (h2 : 0 < n2) (u2 : Bool) {p : List Def}
    (hp : p ∈ optPrograms n1 n2 u2) : (trace p (available false n1 n2 u2)).isSome := by
  simp only [optPrograms, List.mem_cons, List.not_mem_nil, or_false] at hp
  rcases hp with rfl | rfl | rfl | rfl
  · exact trace_all optT_min (by decide +kernel) h1 h2 u2
  · exact trace_all (P := fun n1 n2 u2 => imdsBuild n1 n2 u2 ++ optS n1 n2 u2)
      (fun n1 n2 u2 => by rw [imdsBuild_min, optS_min]) (by decide +kernel) h1 h2 u2
  · exact trace_all (P := fun n1 n2 u2 => imdsBuild n1 n2 u2 ++ optU1 n1 n2 u2)
      (fun n1 n2 u2 => by rw [imdsBuild_min, optU1_min]) (by decide +kernel) h1 h2 u2
  · exact trace_all (P := fun n1 n2 u2 => imdsBuild n1 n2 u2 ++ optU2 n1 n2 u2)
      (fun n1 n2 u2 => by rw [imdsBuild_min, optU2_min]) (by decide +kernel) h1 h2 u2

/-- The functions of the optimised file run without error with the nine blocks of the integrals that
the photon object makes, apart from `eps_vir + w`. -/
theorem opt_runs_partial {n1 n2 : Nat} (h1 : 0 < n1) (h2 : 0 < n2) (u2 : Bool) (t : Inputs R O V X)
    {p : List Def} (hp : p ∈ optPrograms n1 n2 u2) :
    ∃ k, exec p (available false n1 n2 u2, t.ten) = some (k, run p t.ten) :=
  exec_of_trace (opt_trace h1 h2 u2 hp) _

theorem exec_append : ∀ (p q : List Def) (s : List Shape × Tens R O V X),
    exec (p ++ q) s = (exec p s).bind (exec q)
  | [], _, _ => rfl
  | d :: ds, q, (known, ten) => by
    simp only [List.cons_append, exec]
    split_ifs
    · exact exec_append ds q _
    · rfl

/-- `qedccsd_U2n_opt` runs iff there is one mode, one virtual orbital or as many modes as virtual
orbitals. -/
theorem U2n_runs_iff {n1 n2 : Nat} (h1 : 0 < n1) (h2 : 0 < n2) (u2 : Bool) (t : Inputs R O V X) :
    ((exec (imdsBuild n1 n2 u2) (available false n1 n2 u2, t.ten)).bind (execU2n n1 n2 u2)).isSome
      ↔ Fintype.card V = Fintype.card X ∨ Fintype.card V = 1 ∨ Fintype.card X = 1 := by
  obtain ⟨k, hk⟩ := opt_runs_partial h1 h2 u2 t
    (p := imdsBuild n1 n2 u2 ++ optU2 n1 n2 u2) (by simp [optPrograms])
  rw [exec_append] at hk
  obtain ⟨s, hs, hs'⟩ := Option.bind_eq_some_iff.1 hk
  rw [hs]
  simp only [Option.bind_some, execU2n, epsVirW, sumLength]
  split_ifs <;> simp_all

/-- With two modes and three virtual orbitals it raises, whether doubles with photons are used or
not. -/
theorem U2n_runs_fails {n1 n2 : Nat} (h1 : 0 < n1) (h2 : 0 < n2) (u2 : Bool)
    (t : Inputs R O (Fin 3) (Fin 2)) :
    (exec (imdsBuild n1 n2 u2) (available false n1 n2 u2, t.ten)).bind (execU2n n1 n2 u2) = none := by
  rw [← Option.not_isSome_iff_eq_none, U2n_runs_iff h1 h2]
  simp

set_option maxRecDepth 100000 in
/-- Without photons (`nfock1 = 0`) the intermediates cannot be built: `Imds.build` reads `gsov`, which
it has not set. -/
theorem imds_runs_fails (n2 : Nat) (u2 : Bool) (t : Inputs R O V X) :
    exec (imdsBuild 0 n2 u2) (available false 0 n2 u2, t.ten) = none := by
  have h : ∀ (b : Fin 3) (u2 : Bool), trace (imdsBuild 0 b.1 u2) (available false 0 b.1 u2) = none := by
    decide +kernel
  rw [exec_eq, imdsBuild_min, available_min false 0 n2 2 (by omega)]
  have := h ⟨min n2 2, by omega⟩ u2
  simp only [Nat.zero_min] at this ⊢
  rw [this]
  rfl

/-! The results do not depend on arrays that are not there. -/

theorem evalAt_congr {ten ten' : Tens R O V X} {ls : List Line}
    (h : ∀ l ∈ ls, ∀ o ∈ l.ops, ten o.root = ten' o.root) (ds : List (Idx O V X)) :
    evalAt ten (ls.map fun l => (l.out, l.term)) ds
      = evalAt ten' (ls.map fun l => (l.out, l.term)) ds := by
  unfold evalAt
  rw [List.map_map, List.map_map]
  congr 1
  apply List.map_congr_left
  intro l hl
  simp only [Function.comp, Term.eval]
  congr 2
  funext e
  simp only [prodFacs, Line.term, List.map_map]
  congr 1
  apply List.map_congr_left
  intro o ho
  simp [h l hl o ho]

theorem run_congr : ∀ {p : List Def} {known k : List Shape} {ten ten' : Tens R O V X},
    trace p known = some k → (∀ s ∈ known, ten s.1 = ten' s.1) →
      ∀ s ∈ k, run p ten s.1 = run p ten' s.1
  | [], known, k, ten, ten', h, ha => by
    simp only [trace, Option.some.injEq] at h
    subst h
    exact ha
  | d :: ds, known, k, ten, ten', h, ha => by
    unfold trace at h
    split_ifs at h with hr
    refine run_congr (ten := d.run ten) (ten' := d.run ten') h ?_
    have hd : ∀ l ∈ d.lines, ∀ o ∈ l.ops, ten o.root = ten' o.root := by
      intro l hl o ho
      have := List.all_eq_true.1 hr l hl
      simp only [runs, Bool.and_eq_true, List.all_eq_true] at this
      have hc := (this.1.1 o ho).1
      exact ha (o.root, o.blk) (by simpa using hc)
    intro s hs
    funext ix
    simp only [Def.run, Def.terms]
    split_ifs with e
    · exact evalAt_congr hd ix
    · rcases List.mem_cons.1 hs with rfl | hs
      · exact absurd rfl e
      · rw [ha s hs]

/-- Two sets of inputs have the same integrals and the same amplitudes of the truncation. -/
structure SameUpTo (n1 n2 : Nat) (u2 : Bool) (t t' : Inputs R O V X) : Prop where
  F : t.F = t'.F
  I : t.I = t'.I
  g : t.g = t'.g
  w : t.w = t'.w
  G : t.G = t'.G
  T1 : t.T1 = t'.T1
  T2 : t.T2 = t'.T2
  S1 : t.S1 = t'.S1
  U11 : t.U11 = t'.U11
  S2 : 1 < n1 → t.S2 = t'.S2
  U12 : 1 < n2 → t.U12 = t'.U12
  U21 : u2 = true → t.U21 = t'.U21
  U22 : 1 < n2 → u2 = true → t.U22 = t'.U22

omit [Algebra ℚ R] [Fintype O] [Fintype V] [Fintype X] in
theorem SameUpTo.ten {full : Bool} {n1 n2 : Nat} {u2 : Bool} {t t' : Inputs R O V X}
    (h : SameUpTo n1 n2 u2 t t') : ∀ s ∈ available full n1 n2 u2, t.ten s.1 = t'.ten s.1 := by
  intro s hs
  have hr : s.1 ∈ [0, 1, 2, 4, 5, 6, 7, 9, 13, 14] ∨ (s.1 = 8 ∧ 1 < n1) ∨ (s.1 = 10 ∧ 1 < n2)
      ∨ (s.1 = 11 ∧ u2 = true) ∨ (s.1 = 12 ∧ 1 < n2 ∧ u2 = true) := by
    have hb : ∀ {c : Bool} {x : Shape}, s ∈ (bif c then [x] else []) → c = true ∧ s = x := by
      intro c x hx
      cases c <;> simp_all
    have h0 : ∀ full : Bool, ∀ s' ∈ (axisKinds.flatMap fun p => axisKinds.map fun q =>
        ((0, [p, q]) : Shape)) ++ blocks full ++
        (axisKinds.flatMap fun p => axisKinds.map fun q => (2, [.mode, p, q])) ++
        [shape Qedcc.w, shape T1old, shape T2old, shape Qedcc.G, shape H],
        s'.1 ∈ [0, 1, 2, 4, 5, 6, 7, 9, 13, 14] := by decide +kernel
    unfold available at hs
    rcases List.mem_append.1 hs with hs | hs
    · rcases List.mem_append.1 hs with hs | hs
      · rcases List.mem_append.1 hs with hs | hs
        · rcases List.mem_append.1 hs with hs | hs
          · rcases List.mem_append.1 hs with hs | hs
            · rcases List.mem_append.1 hs with hs | hs
              · exact .inl (h0 full s hs)
              · rw [(hb hs).2]
                exact .inl (by decide)
            · obtain ⟨a, rfl⟩ := hb hs
              exact .inr (.inl ⟨rfl, by simpa using a⟩)
          · rw [(hb hs).2]
            exact .inl (by decide)
        · obtain ⟨a, rfl⟩ := hb hs
          exact .inr (.inr (.inl ⟨rfl, by simpa using a⟩))
      · obtain ⟨a, rfl⟩ := hb hs
        simp only [Bool.and_eq_true] at a
        exact .inr (.inr (.inr (.inl ⟨rfl, a.1⟩)))
    · obtain ⟨a, rfl⟩ := hb hs
      simp only [Bool.and_eq_true, decide_eq_true_eq] at a
      exact .inr (.inr (.inr (.inr ⟨rfl, a.2, a.1⟩)))
  generalize s.1 = r at hr
  obtain ⟨F, I, g, w, G, T1, T2, S1, S2, U11, U12, U21, U22⟩ := t
  obtain ⟨F', I', g', w', G', T1', T2', S1', S2', U11', U12', U21', U22'⟩ := t'
  obtain ⟨hF, hI, hg, hw, hG, hT1, hT2, hS1, hU11, hS2, hU12, hU21, hU22⟩ := h
  simp only at hF hI hg hw hG hT1 hT2 hS1 hU11 hS2 hU12 hU21 hU22
  subst hF hI hg hw hG hT1 hT2 hS1 hU11
  rcases hr with hr | ⟨rfl, a⟩ | ⟨rfl, a⟩ | ⟨rfl, a⟩ | ⟨rfl, a, b⟩
  · funext ix
    fin_cases hr <;> rcases ix with
      _ | ⟨a, _ | ⟨b, _ | ⟨c, _ | ⟨d, _ | ⟨e, _ | ⟨f, _ | ⟨k, l⟩⟩⟩⟩⟩⟩⟩ <;> rfl
  · funext ix
    rw [hS2 a]
    rcases ix with
      _ | ⟨a, _ | ⟨b, _ | ⟨c, _ | ⟨d, _ | ⟨e, _ | ⟨f, _ | ⟨k, l⟩⟩⟩⟩⟩⟩⟩ <;> rfl
  · funext ix
    rw [hU12 a]
    rcases ix with
      _ | ⟨a, _ | ⟨b, _ | ⟨c, _ | ⟨d, _ | ⟨e, _ | ⟨f, _ | ⟨k, l⟩⟩⟩⟩⟩⟩⟩ <;> rfl
  · funext ix
    rw [hU21 a]
    rcases ix with
      _ | ⟨a, _ | ⟨b, _ | ⟨c, _ | ⟨d, _ | ⟨e, _ | ⟨f, _ | ⟨k, l⟩⟩⟩⟩⟩⟩⟩ <;> rfl
  · funext ix
    rw [hU22 a b]
    rcases ix with
      _ | ⟨a, _ | ⟨b, _ | ⟨c, _ | ⟨d, _ | ⟨e, _ | ⟨f, _ | ⟨k, l⟩⟩⟩⟩⟩⟩⟩ <;> rfl

theorem trace_names : ∀ {p : List Def} {known k : List Shape}, trace p known = some k →
    ∀ r, r ∈ p.map Def.name ∨ r ∈ known.map Prod.fst → r ∈ k.map Prod.fst
  | [], known, k, h, r, hr => by
    simp only [trace, Option.some.injEq] at h
    subst h
    simpa using hr
  | d :: ds, known, k, h, r, hr => by
    unfold trace at h
    split_ifs at h
    refine trace_names h r ?_
    simp only [List.map_cons, List.mem_cons] at hr ⊢
    tauto

/-- The results of a program that runs do not depend on amplitudes beyond the truncation. -/
theorem result_congr {full : Bool} {n1 n2 : Nat} {u2 : Bool} {t t' : Inputs R O V X} (h : SameUpTo n1 n2 u2 t t')
    {p : List Def} (hk : (trace p (available full n1 n2 u2)).isSome) {x : Tensor} (hx : 14 < x.root) :
    result p t x = result p t' x := by
  obtain ⟨k, hk⟩ := Option.isSome_iff_exists.1 hk
  funext ix
  unfold result
  by_cases hp : x.root ∈ p.map Def.name
  · obtain ⟨s, hs, e⟩ := List.mem_map.1 (trace_names hk _ (.inl hp))
    rw [← e, run_congr hk h.ten s hs]
  · rw [run_other hp, run_other hp]
    obtain ⟨r, hr⟩ := Nat.exists_eq_add_of_le hx
    rw [hr, Nat.add_comm]
    rfl

/-- The residuals of the optimised file do not depend on amplitudes beyond the truncation. -/
theorem opt_truncation {n1 n2 : Nat} (h1 : 0 < n1) (h2 : 0 < n2) {u2 : Bool}
    {t t' : Inputs R O V X} (h : SameUpTo n1 n2 u2 t t') :
    Opt.resT1 n1 n2 u2 t = Opt.resT1 n1 n2 u2 t' ∧ Opt.resT2 n1 n2 u2 t = Opt.resT2 n1 n2 u2 t'
    ∧ Opt.resS1 n1 n2 u2 t = Opt.resS1 n1 n2 u2 t' ∧ Opt.resS2 n1 n2 u2 t = Opt.resS2 n1 n2 u2 t'
    ∧ Opt.resU11 n1 n2 u2 t = Opt.resU11 n1 n2 u2 t'
    ∧ Opt.resU12 n1 n2 u2 t = Opt.resU12 n1 n2 u2 t'
    ∧ Opt.resU21 n1 n2 u2 t = Opt.resU21 n1 n2 u2 t'
    ∧ Opt.resU22 n1 n2 u2 t = Opt.resU22 n1 n2 u2 t' := by
  have e : ∀ {p : List Def}, p ∈ optPrograms n1 n2 u2 → ∀ {x : Tensor}, 14 < x.root →
      result p t x = result p t' x := fun hp _ hx => result_congr h (opt_trace h1 h2 u2 hp) hx
  have eT := @e (optT n1 n2 u2) (by simp [optPrograms])
  have eS := @e (imdsBuild n1 n2 u2 ++ optS n1 n2 u2) (by simp [optPrograms])
  have e1 := @e (imdsBuild n1 n2 u2 ++ optU1 n1 n2 u2) (by simp [optPrograms])
  have e2 := @e (imdsBuild n1 n2 u2 ++ optU2 n1 n2 u2) (by simp [optPrograms])
  refine ⟨?_, ?_, ?_, ?_, ?_, ?_, ?_, ?_⟩
  · funext a i
    simp only [Opt.resT1, eT (x := T1) (by decide)]
  · funext a b i j
    simp only [Opt.resT2, eT (x := T2) (by decide)]
  · funext m
    rw [Opt.resS1, Opt.resS1, eS (x := S1) (by decide), h.w]
  · funext m n
    rw [Opt.resS2, Opt.resS2, eS (x := S2) (by decide), h.w]
  · funext m a i
    simp only [Opt.resU11, e1 (x := U11) (by decide)]
  · funext m n a i
    simp only [Opt.resU12, e1 (x := U12) (by decide)]
  · funext m a b i j
    simp only [Opt.resU21, e2 (x := U21) (by decide)]
  · funext m a b i j
    simp only [Opt.resU22, e2 (x := U22) (by decide)]

/-- The residuals of the unoptimised file do not depend on amplitudes beyond the truncation. -/
theorem ref_truncation {n1 n2 : Nat} (h1 : 0 < n1) (h2 : 0 < n2) {u2 : Bool}
    {t t' : Inputs R O V X} (h : SameUpTo n1 n2 u2 t t') :
    Ref.resT1 n1 n2 u2 t = Ref.resT1 n1 n2 u2 t' ∧ Ref.resT2 n1 n2 u2 t = Ref.resT2 n1 n2 u2 t'
    ∧ Ref.resS1 n1 n2 u2 t = Ref.resS1 n1 n2 u2 t' ∧ Ref.resS2 n1 n2 u2 t = Ref.resS2 n1 n2 u2 t'
    ∧ Ref.resU11 n1 n2 u2 t = Ref.resU11 n1 n2 u2 t'
    ∧ Ref.resU12 n1 n2 u2 t = Ref.resU12 n1 n2 u2 t'
    ∧ Ref.resU21 n1 n2 u2 t = Ref.resU21 n1 n2 u2 t'
    ∧ Ref.resU22 n1 n2 u2 t = Ref.resU22 n1 n2 u2 t'
    ∧ Ref.oneU11 n1 n2 u2 t = Ref.oneU11 n1 n2 u2 t'
    ∧ Ref.oneU12 n1 n2 u2 t = Ref.oneU12 n1 n2 u2 t'
    ∧ Ref.oneU21 n1 n2 u2 t = Ref.oneU21 n1 n2 u2 t'
    ∧ Ref.oneU22 n1 n2 u2 t = Ref.oneU22 n1 n2 u2 t' := by
  have e : ∀ {p : List Def}, p ∈ refPrograms n1 n2 u2 → ∀ {x : Tensor}, 14 < x.root →
      result p t x = result p t' x := fun hp _ hx => result_congr h (ref_trace h1 h2 u2 hp) hx
  refine ⟨?_, ?_, ?_, ?_, ?_, ?_, ?_, ?_, ?_, ?_, ?_, ?_⟩
  · funext a i
    rw [Ref.resT1, Ref.resT1, e (by simp [refPrograms]) (by decide)]
  · funext a b i j
    rw [Ref.resT2, Ref.resT2, e (by simp [refPrograms]) (by decide)]
  · funext m
    rw [Ref.resS1, Ref.resS1, e (by simp [refPrograms]) (by decide), h.w]
  · funext m n
    rw [Ref.resS2, Ref.resS2, e (by simp [refPrograms]) (by decide), h.w]
  · funext m a i
    rw [Ref.resU11, Ref.resU11, e (by simp [refPrograms]) (by decide)]
  · funext m n a i
    rw [Ref.resU12, Ref.resU12, e (by simp [refPrograms]) (by decide)]
  · funext m a b i j
    rw [Ref.resU21, Ref.resU21, e (by simp [refPrograms]) (by decide)]
  · funext m a b i j
    rw [Ref.resU22, Ref.resU22, e (by simp [refPrograms]) (by decide)]
  · funext m a i
    rw [Ref.oneU11, Ref.oneU11, e (by simp [refPrograms]) (by decide)]
  · funext m a i
    rw [Ref.oneU12, Ref.oneU12, e (by simp [refPrograms]) (by decide)]
  · funext m a b i j
    rw [Ref.oneU21, Ref.oneU21, e (by simp [refPrograms]) (by decide)]
  · funext m a b i j
    rw [Ref.oneU22, Ref.oneU22, e (by simp [refPrograms]) (by decide)]

/-- A program that reads an amplitude beyond the truncation raises. -/
example (ten : Tens R O V X) :
    exec [set T1 [ein% "1" "xyai->ai" [U12old]]] (available true 1 1 true, ten) = none := by
  rw [exec_eq, show trace _ _ = none by decide +kernel]
  rfl

end OpenMS.Qedcc
