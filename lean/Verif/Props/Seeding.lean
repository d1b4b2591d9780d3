import Verif.Model.Seeding
import Verif.Props.Walkers

/-!
# The seed and the random numbers of a run (C67)
-/

namespace OpenMS.Seeding

open OpenMS.Walkers

variable {G X : Type*}

/-- **C67, partial.** On one process, and with `debug_mpi` on every process, the numbers drawn in a run
are determined by the seed: they do not depend on what was drawn before, and they are those of a
generator with that seed.  Missing: several processes without `debug_mpi`, see `seed_fails`. -/
theorem seed_partial (R : Rng G X) (size : ℕ) (debugMpi : Bool) (h : size ≤ 1 ∨ debugMpi = true)
    (seed : ℕ) (g : G) (nf nw : ℕ) (evs : List Ev) :
    runProcess R size debugMpi seed g nf nw evs = history R (nf * nw) evs (R.seeded seed) := by
  unfold runProcess seedKernel
  rw [if_neg]
  rintro ⟨h1, h2⟩
  rcases h with h | h
  · omega
  · rw [h2] at h; cases h

/-- **C67, negation.** On several processes without `debug_mpi` the seed has no influence on the
numbers drawn in a run, whatever the generator. -/
theorem seed_fails (R : Rng G X) (size : ℕ) (h : 1 < size) (seed seed' : ℕ) (g : G) (nf nw : ℕ)
    (evs : List Ev) :
    runProcess R size false seed g nf nw evs = runProcess R size false seed' g nf nw evs := by
  unfold runProcess seedKernel
  rw [if_pos ⟨h, rfl⟩, if_pos ⟨h, rfl⟩]

theorem normals_length (R : Rng G X) (m : ℕ) (g : G) : (normals R m g).1.length = m := by
  induction m generalizing g with
  | zero => rfl
  | succ m ih => simp [normals, ih]

theorem normals_head (R : Rng G X) (m : ℕ) (hm : 0 < m) (g : G) :
    (normals R m g).1.head? = some (R.normal g).1 := by
  obtain ⟨m, rfl⟩ : ∃ k, m = k + 1 := ⟨m - 1, by omega⟩
  simp [normals]

/-- **C67, negation.** Two runs with the same seed on several processes draw different numbers, if the
generator had been left in states that give different numbers: results are not reproducible. -/
theorem seed_not_reproducible_fails (R : Rng G X) (size : ℕ) (h : 1 < size) (seed : ℕ) (g g' : G)
    (hg : (R.normal g).1 ≠ (R.normal g').1) (nf nw : ℕ) (hnf : 0 < nf) (hnw : 0 < nw)
    (evs : List Ev) :
    runProcess R size false seed g nf nw (.fields :: evs) ≠
      runProcess R size false seed g' nf nw (.fields :: evs) := by
  unfold runProcess seedKernel
  rw [if_pos ⟨h, rfl⟩, if_pos ⟨h, rfl⟩]
  intro e
  simp only [history, List.cons.injEq] at e
  have h1 := normals_head R (nf * nw) (Nat.mul_pos hnf hnw) g
  have h2 := normals_head R (nf * nw) (Nat.mul_pos hnf hnw) g'
  rw [e.1, h2] at h1
  exact hg (Option.some.inj h1).symm

/-- **C67, negation.** Processes whose generators happen to be in the same state (for instance because the
script called `np.random.seed`) draw the same numbers: the processes are not independent. -/
theorem ranks_not_independent_fails (R : Rng G X) (size : ℕ) (h : 1 < size) (script seed : ℕ)
    (g : Fin size → G) (hg : ∀ r, g r = R.seeded script) (nf nw : ℕ) (evs : List Ev)
    (r r' : Fin size) :
    runProcess R size false seed (g r) nf nw evs = runProcess R size false seed (g r') nf nw evs ∧
    runProcess R size false seed (g r) nf nw evs = history R (nf * nw) evs (R.seeded script) := by
  unfold runProcess seedKernel
  rw [if_pos ⟨h, rfl⟩, if_pos ⟨h, rfl⟩, hg, hg]
  exact ⟨rfl, rfl⟩

theorem displ_of_take (nf : ℕ) (l : List ℕ) (r : ℕ) :
    ((l.map fun nw => nf * nw).take r).sum = (l.take r).sum * nf := by
  rw [← List.map_take, List.sum_map_mul_left, List.map_id', mul_comm]

/-- The row of a walker in the part that its process receives is the row of that walker in the full
list. -/
theorem row_scatter (nf nwalkers size r j : ℕ) (hr : r < size)
    (hj : j < (walkerCounter nwalkers size).getD r 0) (full : List X) :
    row nf j (scatter nf nwalkers size r full) =
      row nf ((displs nwalkers size).getD r 0 + j) full := by
  have hc : r < (walkerCounter nwalkers size).length := by simp [walkerCounter, hr]
  have hd : (displs nwalkers size).getD r 0 = ((walkerCounter nwalkers size).take r).sum := by
    simp [displs, hr]
  have hcnt : ((walkerCounter nwalkers size).map fun nw => nf * nw).getD r 0
      = nf * (walkerCounter nwalkers size).getD r 0 := by
    simp [hc]
  unfold row scatter
  simp only
  rw [displ_of_take, hcnt, hd, List.drop_take, List.take_take, List.drop_drop, add_mul]
  congr 1
  · rw [Nat.min_eq_left]
    have h1 : j + 1 ≤ (walkerCounter nwalkers size).getD r 0 := hj
    have h2 : (j + 1) * nf ≤ (walkerCounter nwalkers size).getD r 0 * nf := Nat.mul_le_mul_right _ h1
    rw [Nat.add_mul, one_mul] at h2
    rw [mul_comm nf]
    omega

/-- **C67, `debug_mpi`.** With `debug_mpi`, on any number of processes, if process 0 goes through the
same events as the run on one process (which the control methods with a fixed number of draws
guarantee), every walker sees in every propagation step exactly the auxiliary fields that it sees
in the run on one process. -/
theorem debug_matches_serial_partial (R : Rng G X) (size seed : ℕ) (g g' : G) (nf nwalkers : ℕ)
    (evs : List Ev) (r j : ℕ) (hr : r < size) (hj : j < (walkerCounter nwalkers size).getD r 0) :
    (debugFields R size seed g nf nwalkers evs r).map (row nf j) =
      (serialFields R seed g' nf nwalkers evs).map
        (row nf ((displs nwalkers size).getD r 0 + j)) := by
  unfold debugFields serialFields
  rw [seed_partial R 1 false (Or.inl le_rfl)]
  have : seedKernel R size true seed g = R.seeded seed := by simp [seedKernel]
  rw [this, List.map_map, List.map_map]
  apply List.map_congr_left
  intro p _
  exact row_scatter nf nwalkers size r j hr hj p.2

/-- The fields a walker gets are `nf` numbers, and all walkers of all processes together get everything
that process 0 has drawn. -/
theorem scatter_covers (nf nwalkers size : ℕ) (hs : 0 < size) (full : List X)
    (hl : full.length = nf * nwalkers) :
    ((List.range size).map fun r => scatter nf nwalkers size r full).flatten = full := by
  have hlen : (walkerCounter nwalkers size).length = size := (walker_distribution nwalkers size hs).1
  have hsum : (walkerCounter nwalkers size).sum = nwalkers := (walker_distribution nwalkers size hs).2.1
  have key : ∀ m, m ≤ size → ((List.range m).map fun r => scatter nf nwalkers size r full).flatten
      = full.take (((walkerCounter nwalkers size).map fun nw => nf * nw).take m).sum := by
    intro m
    induction m with
    | zero => intro _; simp
    | succ m ih =>
      intro hm
      have hml : m < ((walkerCounter nwalkers size).map fun nw => nf * nw).length := by
        simp [hlen]; omega
      rw [List.range_succ, List.map_append, List.flatten_append, ih (by omega),
        List.sum_take_succ _ _ hml, List.take_add]
      simp [scatter, hlen, show m < size by omega]
  have ht : (walkerCounter nwalkers size).take size = walkerCounter nwalkers size :=
    List.take_of_length_le hlen.le
  rw [key size le_rfl, displ_of_take, ht, hsum, List.take_of_length_le (by rw [hl, mul_comm])]

/-- **C67, negation for branching.** With a method whose number of draws depends on the weights the
events of process 0 can differ from those of the run on one process (a light and a heavy walker on two
processes are no pair, so branching draws no number; on one process they are a pair and it draws one),
and from there on the fields differ, for every generator whose numbers after one uniform draw are
others. -/
theorem debug_branching_fails (R : Rng G X) (size seed : ℕ) (g g' : G) (nf nwalkers : ℕ)
    (hnf : 0 < nf) (hn : 0 < nwalkers) (hs : 0 < size)
    (hR : (R.normal (R.uniform (R.seeded seed)).2).1 ≠ (R.normal (R.seeded seed)).1) :
    (debugFields R size seed g nf nwalkers [.control 0, .fields] 0).map (row nf 0) ≠
      (serialFields R seed g' nf nwalkers [.control 1, .fields]).map (row nf 0) := by
  intro e
  have e1 := debug_matches_serial_partial R size seed g g' nf nwalkers [.control 0, .fields] 0 0 hs
    (by
      have : 0 < nwalkers / size ∨ 0 < nwalkers % size := by
        by_contra hc
        push Not at hc
        have := Nat.div_add_mod nwalkers size
        rw [Nat.le_zero.1 hc.1, Nat.le_zero.1 hc.2] at this
        omega
      simp only [walkerCounter, List.getD_eq_getElem?_getD, List.getElem?_map,
        List.getElem?_range hs, Option.map_some, Option.getD_some]
      rcases this with h | h
      · omega
      · rw [if_pos h]; exact Nat.succ_pos _)
  have hd : (displs nwalkers size).getD 0 0 = 0 := by simp [displs, hs]
  rw [e, hd] at e1
  have hrow : ∀ g, (row nf 0 (normals R (nf * nwalkers) g).1).head? = some (R.normal g).1 := by
    intro g
    unfold row
    rw [zero_mul, List.drop_zero]
    have := normals_head R (nf * nwalkers) (Nat.mul_pos hnf hn) g
    rw [← this, List.head?_take, if_neg (by omega)]
  have hS : ∀ k, serialFields R seed g' nf nwalkers [.control k, .fields] =
      [(normals R (nf * nwalkers) (uniforms R k (R.seeded seed)).2).1] := by
    intro k
    unfold serialFields
    rw [seed_partial R 1 false (Or.inl le_rfl)]
    simp [history]
  rw [hS, hS] at e1
  simp only [List.map_cons, List.map_nil, add_zero, List.cons.injEq, and_true] at e1
  have e2 := congrArg List.head? e1
  rw [hrow, hrow] at e2
  exact hR (Option.some.inj e2)

/-- A generator that counts, seeded with the seed: five walkers on two processes with two fields each.
The second process gets the rows of walkers 3 and 4. -/
example : (debugFields (⟨fun s => s, fun g => (g, g + 1), fun g => (g, g + 1)⟩ : Rng ℕ ℕ)
      2 7 0 2 5 [.control 1, .fields] 1).map (row 2 1) = [[16, 17]] ∧
    (1 : ℕ) < (walkerCounter 5 2).getD 1 0 := by
  decide

/-- The same generator meets the hypotheses of the negations. -/
example : let R : Rng ℕ ℕ := ⟨fun s => s, fun g => (g, g + 1), fun g => (g, g + 1)⟩
    (R.normal 3).1 ≠ (R.normal 5).1 ∧ (R.normal (R.uniform (R.seeded 7)).2).1 ≠ (R.normal (R.seeded 7)).1 := by
  decide

end OpenMS.Seeding
