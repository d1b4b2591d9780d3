import Verif.Model.Integrals
import Mathlib.Tactic.NormNum
import Mathlib.Tactic.Linarith

/-!
# Reading integrals (C27), shell lookup (C74), coupling term (C75)
-/

set_option linter.unusedSectionVars false

namespace OpenMS.Integrals

variable {K : Type*} [Zero K]

/-! ## C27 -/

/-- Symmetry of the one-electron matrix and of each pair of the two-electron tensor. -/
def PairSymmetric (h1e : ℕ → ℕ → K) (eri : ℕ → ℕ → ℕ → ℕ → K) : Prop :=
  (∀ a b, h1e a b = h1e b a) ∧
  ∀ a b c d, eri a b c d = eri b a c d ∧ eri a b c d = eri a b d c

/-- Symmetry under exchange of the pairs. -/
def PairExchange (eri : ℕ → ℕ → ℕ → ℕ → K) : Prop := ∀ a b c d, eri a b c d = eri c d a b

theorem readLine_symm (norb : ℕ) (D D' : Dump K) (l : Line K) (h : readLine norb D l = some D')
    (hs : PairSymmetric D.h1e D.eri) : PairSymmetric D'.h1e D'.eri := by
  unfold readLine at h
  split_ifs at h with h1 h2
  · simp only [Option.bind_eq_some_iff] at h
    obtain ⟨p, -, q, -, r, -, s, -, h⟩ := h
    simp only [Option.some.injEq] at h
    subst h
    refine ⟨hs.1, fun a b c d => ?_⟩
    have h1 := (hs.2 a b c d).1
    have h2 := (hs.2 a b c d).2
    simp only [set4]
    constructor
    · rw [h1]; grind (splits := 20)
    · rw [h2]; grind (splits := 20)
  · simp only [Option.bind_eq_some_iff] at h
    obtain ⟨p, -, q, -, h⟩ := h
    simp only [Option.some.injEq] at h
    subst h
    refine ⟨fun a b => ?_, hs.2⟩
    have h1 := hs.1 a b
    simp only [set2]
    rw [h1]; grind
  · simp only [Option.some.injEq] at h
    subst h
    exact hs

theorem readLines_symm (norb : ℕ) (lines : List (Line K)) (D : Dump K)
    (h : readLines norb lines = some D) : PairSymmetric D.h1e D.eri := by
  have key : ∀ (ls : List (Line K)) (D0 : Dump K), PairSymmetric D0.h1e D0.eri →
      ∀ D, ls.foldlM (readLine norb) D0 = some D → PairSymmetric D.h1e D.eri := by
    intro ls
    induction ls with
    | nil =>
      intro D0 h0 D hD
      simp at hD
      subst hD; exact h0
    | cons l ls ih =>
      intro D0 h0 D hD
      rw [List.foldlM_cons] at hD
      cases h1 : readLine norb D0 l with
      | none => rw [h1] at hD; simp at hD
      | some D1 =>
        rw [h1] at hD
        exact ih D1 (readLine_symm norb D0 D1 l h1 h0) D hD
  exact key lines _ ⟨fun _ _ => rfl, fun _ _ _ _ => ⟨rfl, rfl⟩⟩ D h

/-- **C27 (partial).** Whatever is listed in the file, the one-electron matrix is symmetric and
the two-electron tensor is symmetric within each pair (four-fold symmetry). -/
theorem fcidump_partial (norb : ℕ) (lines : List (Line K)) (h1e : ℕ → ℕ → K)
    (eri : ℕ → ℕ → ℕ → ℕ → K) (nuc : K) (h : readFcidump norb lines = some (h1e, eri, nuc)) :
    PairSymmetric h1e eri := by
  unfold readFcidump at h
  rw [Option.bind_eq_some_iff] at h
  obtain ⟨D, hD, h⟩ := h
  rw [Option.map_eq_some_iff] at h
  obtain ⟨e, -, h⟩ := h
  simp only [Prod.mk.injEq] at h
  obtain ⟨rfl, rfl, -⟩ := h
  exact readLines_symm norb lines D hD

/-- **C27 fails for the exchange of pairs**: a file that lists `(11|12)` once, as FCIDUMP files
do, leaves `(12|11)` at zero. -/
theorem fcidump_exchange_fails :
    ∃ (lines : List (Line ℚ)) (h1e : ℕ → ℕ → ℚ) (eri : ℕ → ℕ → ℕ → ℕ → ℚ) (nuc : ℚ),
      readFcidump 2 lines = some (h1e, eri, nuc) ∧ eri 0 0 0 1 = 5 ∧ eri 0 1 0 0 = 0 ∧
      ¬ PairExchange eri := by
  refine ⟨[⟨5, 1, 1, 1, 2⟩, ⟨3, 0, 0, 0, 0⟩], _, _, _, rfl, ?_, ?_, ?_⟩
  · simp [set4]
  · simp [set4]
  · intro h
    have := h 0 0 0 1
    simp [set4] at this

theorem readLine_last (norb : ℕ) (D D' : Dump K) (l : Line K) (a b c d : ℕ)
    (hr : l.r ≠ 0) (hp : l.p = a + 1) (hq : l.q = b + 1) (hr' : l.r = c + 1) (hs : l.s = d + 1)
    (ha : a < norb) (hb : b < norb) (hc : c < norb) (hd : d < norb)
    (h : readLine norb D l = some D') :
    D'.eri a b c d = l.val ∧ D'.eri b a c d = l.val ∧ D'.eri a b d c = l.val ∧
      D'.eri b a d c = l.val := by
  have e : ∀ k : ℕ, k < norb → pyIndex norb ((k : ℤ) + 1 - 1) = some k := by
    intro k hk
    unfold pyIndex
    rw [if_pos (by omega)]
    congr 1
    omega
  unfold readLine at h
  rw [if_pos hr, hp, hq, hr', hs, e a ha, e b hb, e c hc, e d hd] at h
  simp only [Option.bind_some, Option.some.injEq] at h
  subst h
  simp only [set4]
  refine ⟨?_, ?_, ?_, ?_⟩ <;> grind

/-- Specification: indices of a line of a well-formed file. -/
def WellFormed (norb : ℕ) (l : Line K) : Prop :=
  (l.r ≠ 0 → (1 ≤ l.p ∧ l.p ≤ norb) ∧ (1 ≤ l.q ∧ l.q ≤ norb) ∧ (1 ≤ l.r ∧ l.r ≤ norb) ∧
    (1 ≤ l.s ∧ l.s ≤ norb)) ∧
  (l.r = 0 → l.p ≠ 0 → (1 ≤ l.p ∧ l.p ≤ norb) ∧ (1 ≤ l.q ∧ l.q ≤ norb))

/-- Specification: the line gives the two-electron integral `(a b | c d)` (counted from zero), in
any order within the pairs. -/
def GivesTwo (l : Line K) (a b c d : ℕ) : Prop :=
  l.r ≠ 0 ∧ ((l.p = a + 1 ∧ l.q = b + 1) ∨ (l.p = b + 1 ∧ l.q = a + 1)) ∧
    ((l.r = c + 1 ∧ l.s = d + 1) ∨ (l.r = d + 1 ∧ l.s = c + 1))

/-- Specification: the line gives the one-electron integral `a b`, in any order. -/
def GivesOne (l : Line K) (a b : ℕ) : Prop :=
  l.r = 0 ∧ l.p ≠ 0 ∧ ((l.p = a + 1 ∧ l.q = b + 1) ∨ (l.p = b + 1 ∧ l.q = a + 1))

/-- Specification: the line gives the nuclear energy. -/
def GivesNuc (l : Line K) : Prop := l.r = 0 ∧ l.p = 0

/-- Specification: the value of the last line with a property. -/
noncomputable def lastValue (P : Line K → Prop) (lines : List (Line K)) : Option K :=
  open Classical in (lines.filter fun l => decide (P l)).getLast?.map Line.val

theorem lastValue_snoc (P : Line K → Prop) (lines : List (Line K)) (l : Line K) :
    lastValue P (lines ++ [l]) = open Classical in if P l then some l.val else lastValue P lines := by
  classical
  unfold lastValue
  by_cases h : P l
  · simp [List.filter_append, h]
  · simp [List.filter_append, h]

theorem pyIndex_pos (n : ℕ) (k : ℤ) (h1 : 1 ≤ k) (h2 : k ≤ n) :
    ∃ j : ℕ, pyIndex n (k - 1) = some j ∧ k = j + 1 ∧ j < n := by
  refine ⟨(k - 1).toNat, ?_, by omega, by omega⟩
  unfold pyIndex
  rw [if_pos (by omega)]

/-- **C27, reading back.** A well-formed file is read without error up to its nuclear energy, and
the result is: every integral has the value of the last line that lists it (in any of the four
orders within the pairs), or zero if it is not listed; the nuclear energy is that of the last
such line. -/
theorem fcidump_read_back (norb : ℕ) (lines : List (Line K))
    (hw : ∀ l ∈ lines, WellFormed norb l) :
    ∃ D, readLines norb lines = some D ∧
      (∀ a b, D.h1e a b = (lastValue (fun l => GivesOne l a b) lines).getD 0) ∧
      (∀ a b c d, D.eri a b c d = (lastValue (fun l => GivesTwo l a b c d) lines).getD 0) ∧
      D.nuc = lastValue GivesNuc lines := by
  induction lines using List.reverseRecOn with
  | nil => exact ⟨_, rfl, by simp [lastValue], by simp [lastValue], by simp [lastValue]⟩
  | append_singleton lines l ih =>
    obtain ⟨D, hD, h1, h2, h3⟩ := ih fun x hx => hw x (by simp [hx])
    have hl := hw l (by simp)
    have hstep : readLines norb (lines ++ [l]) = readLine norb D l := by
      unfold readLines at hD ⊢
      rw [List.foldlM_append, hD]
      simp
    rw [hstep]
    simp only [lastValue_snoc]
    unfold readLine
    by_cases c1 : l.r ≠ 0
    · obtain ⟨⟨p1, p2⟩, ⟨q1, q2⟩, ⟨r1, r2⟩, s1, s2⟩ := hl.1 c1
      obtain ⟨p, ep, hp, -⟩ := pyIndex_pos norb l.p p1 p2
      obtain ⟨q, eq, hq, -⟩ := pyIndex_pos norb l.q q1 q2
      obtain ⟨r, er, hr, -⟩ := pyIndex_pos norb l.r r1 r2
      obtain ⟨s, es, hs, -⟩ := pyIndex_pos norb l.s s1 s2
      rw [if_pos c1, ep, eq, er, es]
      refine ⟨_, rfl, ?_, ?_, ?_⟩
      · intro a b
        rw [if_neg (fun h => c1 h.1)]
        exact h1 a b
      · intro a b c d
        simp only [set4]
        by_cases hg : GivesTwo l a b c d
        · rw [if_pos hg]
          obtain ⟨-, g1, g2⟩ := hg
          have g1' : (a = p ∧ b = q) ∨ (a = q ∧ b = p) := by omega
          have g2' : (c = r ∧ d = s) ∨ (c = s ∧ d = r) := by omega
          rw [Option.getD_some]
          rcases g1' with ⟨rfl, rfl⟩ | ⟨rfl, rfl⟩ <;> rcases g2' with ⟨rfl, rfl⟩ | ⟨rfl, rfl⟩ <;>
            simp
        · rw [if_neg hg, ← h2]
          have g : ¬ (((a = p ∧ b = q) ∨ (a = q ∧ b = p)) ∧ ((c = r ∧ d = s) ∨ (c = s ∧ d = r))) := by
            intro hc
            exact hg ⟨c1, by omega, by omega⟩
          rw [if_neg (by tauto), if_neg (by tauto), if_neg (by tauto), if_neg (by tauto)]
      · rw [if_neg (fun h => c1 h.1)]
        exact h3
    · rw [if_neg c1]
      push Not at c1
      by_cases c2 : l.p ≠ 0
      · obtain ⟨⟨p1, p2⟩, q1, q2⟩ := hl.2 c1 c2
        obtain ⟨p, ep, hp, -⟩ := pyIndex_pos norb l.p p1 p2
        obtain ⟨q, eq, hq, -⟩ := pyIndex_pos norb l.q q1 q2
        rw [if_pos c2, ep, eq]
        refine ⟨_, rfl, ?_, ?_, ?_⟩
        · intro a b
          simp only [set2]
          by_cases hg : GivesOne l a b
          · rw [if_pos hg]
            obtain ⟨-, -, g1⟩ := hg
            have g1' : (a = p ∧ b = q) ∨ (a = q ∧ b = p) := by omega
            rw [Option.getD_some]
            rcases g1' with ⟨rfl, rfl⟩ | ⟨rfl, rfl⟩ <;> simp
          · rw [if_neg hg, ← h1]
            have g : ¬ ((a = p ∧ b = q) ∨ (a = q ∧ b = p)) := by
              intro hc
              exact hg ⟨c1, c2, by omega⟩
            rw [if_neg (by tauto), if_neg (by tauto)]
        · intro a b c d
          rw [if_neg (fun h => h.1 c1)]
          exact h2 a b c d
        · rw [if_neg (fun h => c2 h.2)]
          exact h3
      · rw [if_neg c2]
        push Not at c2
        refine ⟨_, rfl, ?_, ?_, ?_⟩
        · intro a b
          rw [if_neg (fun h => h.2.1 c2)]
          exact h1 a b
        · intro a b c d
          rw [if_neg (fun h => h.1 c1)]
          exact h2 a b c d
        · rw [if_pos ⟨c1, c2⟩]

/-- A file with one integral of each kind. -/
example : ∀ l ∈ ([⟨5, 1, 1, 1, 2⟩, ⟨7, 1, 2, 0, 0⟩, ⟨3, 0, 0, 0, 0⟩] : List (Line ℚ)),
    WellFormed 2 l := by
  intro l hl
  simp only [List.mem_cons, List.not_mem_nil, or_false] at hl
  rcases hl with rfl | rfl | rfl <;> simp [WellFormed]

/-- The last integral listed is stored at all four equivalent positions. -/
theorem fcidump_stored (norb : ℕ) (lines : List (Line K)) (l : Line K) (D : Dump K) (a b c d : ℕ)
    (hp : l.p = a + 1) (hq : l.q = b + 1) (hr : l.r = c + 1) (hs : l.s = d + 1)
    (ha : a < norb) (hb : b < norb) (hc : c < norb) (hd : d < norb)
    (h : readLines norb (lines ++ [l]) = some D) :
    D.eri a b c d = l.val ∧ D.eri b a c d = l.val ∧ D.eri a b d c = l.val ∧
      D.eri b a d c = l.val := by
  unfold readLines at h
  rw [List.foldlM_append] at h
  change Option.bind _ _ = _ at h
  rw [Option.bind_eq_some_iff] at h
  obtain ⟨D0, -, h⟩ := h
  rw [List.foldlM_cons] at h
  change Option.bind _ _ = _ at h
  rw [Option.bind_eq_some_iff] at h
  obtain ⟨D1, h1, h⟩ := h
  simp at h
  subst h
  exact readLine_last norb D0 D1 l a b c d (by omega) hp hq hr hs ha hb hc hd h1

/-- A file without a line for the nuclear energy raises an error. -/
theorem fcidump_no_nuc (norb : ℕ) (lines : List (Line K))
    (h : ∀ l ∈ lines, l.r ≠ 0 ∨ l.p ≠ 0) : readFcidump norb lines = none := by
  unfold readFcidump
  have key : ∀ (ls : List (Line K)) (D0 D : Dump K), (∀ l ∈ ls, l.r ≠ 0 ∨ l.p ≠ 0) →
      ls.foldlM (readLine norb) D0 = some D → D.nuc = D0.nuc := by
    intro ls
    induction ls with
    | nil =>
      intro D0 D _ hD
      simp at hD
      subst hD; rfl
    | cons l ls ih =>
      intro D0 D hl hD
      rw [List.foldlM_cons] at hD
      change Option.bind _ _ = _ at hD
      rw [Option.bind_eq_some_iff] at hD
      obtain ⟨D1, h1, hD⟩ := hD
      rw [ih D1 D (fun x hx => hl x (List.mem_cons_of_mem _ hx)) hD]
      unfold readLine at h1
      have hl0 := hl l List.mem_cons_self
      split_ifs at h1 with c1 c2
      · simp only [Option.bind_eq_some_iff] at h1
        obtain ⟨p, -, q, -, r, -, s, -, h1⟩ := h1
        simp only [Option.some.injEq] at h1
        subst h1; rfl
      · simp only [Option.bind_eq_some_iff] at h1
        obtain ⟨p, -, q, -, h1⟩ := h1
        simp only [Option.some.injEq] at h1
        subst h1; rfl
      · exact absurd hl0 (by tauto)
  cases hD : readLines norb lines with
  | none => rfl
  | some D =>
    have := key lines _ D h hD
    simp [this]

/-! ## C74: shell lookup -/

/-- Offsets written out: entry `k` is the number of functions in the first `k` shells. -/
theorem shellOffsets_eq (sizes : List ℕ) :
    shellOffsets sizes = (List.range (sizes.length + 1)).map fun k => (sizes.take k).sum := by
  induction sizes using List.reverseRecOn with
  | nil => rfl
  | append_singleton xs x ih =>
    have h1 : shellOffsets (xs ++ [x]) = shellOffsets xs ++ [(shellOffsets xs).getLastD 0 + x] := by
      unfold shellOffsets
      rw [List.foldl_append]; rfl
    have h2 : (shellOffsets xs).getLastD 0 = xs.sum := by
      rw [ih, List.range_succ, List.map_append]
      simp
    rw [h1, h2, ih, List.length_append, List.length_singleton, List.range_succ (n := xs.length + 1),
      List.map_append]
    congr 1
    · apply List.map_congr_left
      intro k hk
      rw [List.mem_range] at hk
      rw [List.take_append_of_le_length (by omega)]
    · simp

/-- **C74.** For every list of shell sizes and every orbital of the basis, the shell found is
the one whose range of orbitals contains it. -/
theorem find_shell (sizes : List ℕ) (j : ℕ) (hj : j < sizes.sum) :
    ∃ s : ℕ, findShell (shellOffsets sizes) j = s ∧ s < sizes.length ∧
      (sizes.take s).sum ≤ j ∧ j < (sizes.take (s + 1)).sum := by
  -- the shell containing `j`
  have hex : ∃ s, s < sizes.length ∧ (sizes.take s).sum ≤ j ∧ j < (sizes.take (s + 1)).sum := by
    induction sizes generalizing j with
    | nil => simp at hj
    | cons d ds ih =>
      by_cases hd : j < d
      · exact ⟨0, by simp, by simp, by simpa using hd⟩
      · have hj' : j - d < ds.sum := by simp at hj; omega
        obtain ⟨s, h1, h2, h3⟩ := ih (j - d) hj'
        refine ⟨s + 1, by simpa using h1, ?_, ?_⟩
        · rw [List.take_succ_cons, List.sum_cons]; omega
        · rw [List.take_succ_cons, List.sum_cons]; omega
  obtain ⟨s, h1, h2, h3⟩ := hex
  refine ⟨s, ?_, h1, h2, h3⟩
  have mono : ∀ a b, a ≤ b → (sizes.take a).sum ≤ (sizes.take b).sum := by
    intro a b hab
    have : sizes.take a = (sizes.take b).take a := by
      rw [List.take_take, min_eq_left hab]
    rw [this]
    exact (List.take_sublist _ _).sum_le_sum (by simp)
  have hcount : searchsortedRight (shellOffsets sizes) j = s + 1 := by
    unfold searchsortedRight
    rw [shellOffsets_eq, List.filter_map, List.length_map]
    have : (List.range (sizes.length + 1)).filter
        ((fun x => decide (x ≤ j)) ∘ fun k => (sizes.take k).sum) = List.range (s + 1) := by
      have e : sizes.length + 1 = (s + 1) + (sizes.length - s) := by omega
      rw [e, List.range_add, List.filter_append]
      have f1 : (List.range (s + 1)).filter
          ((fun x => decide (x ≤ j)) ∘ fun k => (sizes.take k).sum) = List.range (s + 1) := by
        rw [List.filter_eq_self]
        intro a ha
        rw [List.mem_range] at ha
        simp only [Function.comp, decide_eq_true_eq]
        exact (mono a s (by omega)).trans h2
      have f2 : ((List.range (sizes.length - s)).map (s + 1 + ·)).filter
          ((fun x => decide (x ≤ j)) ∘ fun k => (sizes.take k).sum) = [] := by
        rw [List.filter_eq_nil_iff]
        intro a ha
        obtain ⟨b, -, rfl⟩ := List.mem_map.1 ha
        simp only [Function.comp, decide_eq_true_eq, not_le]
        exact h3.trans_le (mono _ _ (by omega))
      rw [f1, f2, List.append_nil]
    rw [this, List.length_range]
  unfold findShell
  rw [hcount]
  push_cast
  omega

example : findShell (shellOffsets [1, 3, 3, 5]) 6 = 2 ∧ findShell (shellOffsets [1, 3, 3, 5]) 7 = 3 := by
  decide

/-! ## C75: coupling term in the blocked decomposition -/

/-- **C75 (partial).** With exactly one coupling matrix the column of `g g^T` is added. -/
theorem coupling_chunk_partial {K : Type*} [Mul K] (npair : ℕ) (g : List K) (hg : g.length = npair) (jl : ℕ)
    (x : K) (hx : g[jl]? = some x) :
    couplingChunk npair [g] jl = some (g.map (x * ·)) := by
  simp [couplingChunk, hx, hg]

/-- **C75 fails for two or more modes**: the reshape raises an error, for every coupling and
every position. -/
theorem coupling_chunk_fails {K : Type*} [Mul K] (npair : ℕ) (hp : 0 < npair) (gs : List (List K))
    (h2 : 2 ≤ gs.length) (hg : ∀ g ∈ gs, g.length = npair) (jl : ℕ) (hj : jl < npair) :
    couplingChunk npair gs jl = none := by
  unfold couplingChunk
  have : (gs.map fun gm => (gm[jl]?).elim [] fun x => gm.map (x * ·)).flatten.length = gs.length * npair := by
    rw [List.length_flatten, List.map_map]
    have : ∀ g ∈ gs, (List.length ∘ fun gm : List K => (gm[jl]?).elim [] fun x => gm.map (x * ·)) g = npair := by
      intro g hgm
      have hl := hg g hgm
      have : g[jl]? = some g[jl] := List.getElem?_eq_getElem (by omega)
      simp [this, hl]
    rw [List.map_congr_left this]
    simp
  rw [if_neg]
  rw [this]
  intro hc
  have : 2 * npair ≤ gs.length * npair := Nat.mul_le_mul_right _ h2
  omega

example : couplingChunk 4 [[1, 2, 2, (5 : ℚ)]] 1 = some [2, 4, 4, 10] ∧
    couplingChunk 4 [[1, 2, 2, (5 : ℚ)], [0, 1, 1, 0]] 1 = none := by
  constructor
  · rw [coupling_chunk_partial 4 [1, 2, 2, 5] rfl 1 2 rfl]; norm_num
  · exact coupling_chunk_fails 4 (by norm_num) _ (by simp) (by simp) 1 (by norm_num)

end OpenMS.Integrals
