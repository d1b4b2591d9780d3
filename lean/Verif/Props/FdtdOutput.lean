import Verif.Model.FdtdOutput
import Verif.Props.FdtdParity
import Verif.Props.FdtdBloch

/-!
# C158: values reported by the Maxwell solver

The output gives the components of the fields at the nodes of the grid, as averages of the two or four
values around a node.  With mirror planes a node behind the plane is replaced by the one on the other
side.  When the number of cells of the whole grid is even the values are the averages of the mirrored
field of C157.  When it is odd every node behind the plane gets the value that belongs to its neighbour.

In a crystal the values after a step are the averages of the field of the whole crystal of C156, and the
phases used for other cells are right along `x` and along `y`.  Three things are wrong: the values of
`Hz` in the corner of the cell use a place that no loop ever writes, the phase for both directions lacks
a factor `2π`, and the rows and columns of several cells leave out one node per cell and go through the
cells in the wrong direction along `y`.
-/

set_option linter.unusedSectionVars false
set_option linter.unusedVariables false

namespace OpenMS.Fdtd

section

variable {K : Type*} [Field K] [DecidableEq K]

/-- The whole grid has an even number of cells, twice the number of the plane. -/
def EvenSized (M : Parity) (N : Ix) : Prop :=
  (Parity.on M.x → N.1 = 2 * M.ci) ∧ (Parity.on M.y → N.2.1 = 2 * M.cj) ∧ (Parity.on M.z → N.2.2 = 2 * M.ck)

theorem otherSide_eq {p σ n c i : ℤ} (h : Parity.on σ → p = c + 1 ∧ 2 ≤ c) (hn : Parity.on σ → n = 2 * c) :
    otherSide p σ n i = fold false σ c i := by
  unfold otherSide fold
  by_cases hon : Parity.on σ
  · simp only [if_pos hon, Bool.false_eq_true, if_false, hn hon]
    exact if_congr ⟨fun h' => by have := h hon; omega, fun h' => ⟨by have := h hon; omega, hon⟩⟩ rfl rfl
  · rw [if_neg hon, if_neg fun h' => hon h'.2]

theorem signInt_eq {p σ c i : ℤ} (h : Parity.on σ → p = c + 1 ∧ 2 ≤ c) :
    (signInt p σ i : K) = sign false σ c i := by
  unfold signInt sign
  by_cases hon : Parity.on σ
  · simp only [if_pos hon, Bool.false_eq_true, if_false]
    exact if_congr ⟨fun h' => by have := h hon; omega, fun h' => ⟨by have := h hon; omega, hon⟩⟩ rfl rfl
  · rw [if_neg hon, if_neg fun h' => hon h'.2]

/-- Sums of neighbouring values half a cell behind their index. -/
theorem line_sum {p σ c i : ℤ} (h : Parity.on σ → p = c + 1 ∧ 2 ≤ c) (g : ℤ → K)
    (hg : Parity.on σ → g c = σ * g (c - 1)) :
    sign true σ c i * g (fold true σ c i) + sign true σ c (i - 1) * g (fold true σ c (i - 1)) =
      signHalf p σ i * (g (fold false σ c i) + g (fold false σ c i - 1)) := by
  unfold sign fold signHalf
  by_cases hon : Parity.on σ
  · have h1 : (σ : K) * σ = 1 := by rcases hon with h | h <;> rw [h] <;> norm_num
    have hg' := hg hon
    obtain ⟨hp, _⟩ := h hon
    simp only [if_pos hon, if_true, Bool.false_eq_true, if_false, hon, and_true]
    rcases lt_trichotomy i c with h | h | h
    · rw [if_neg (by omega), if_neg (by omega), if_neg (by omega), if_neg (by omega), if_neg (by omega),
        if_neg (by omega)]
      ring
    · subst h
      rw [if_pos le_rfl, if_pos le_rfl, if_neg (by omega), if_neg (by omega), if_neg (by omega),
        if_neg (by omega), hg', show 2 * i - 1 - i = i - 1 by ring]
      ring
    · rw [if_pos (by omega), if_pos (by omega), if_pos (by omega), if_pos (by omega), if_pos (by omega),
        if_pos (by omega), show 2 * c - 1 - (i - 1) = 2 * c - i by ring,
        show 2 * c - 1 - i = 2 * c - i - 1 by ring]
      ring
  · simp only [if_neg hon, hon, and_false, if_false]
    ring

theorem fold_near {σ c p i : ℤ} (hs : Parity.on σ → p = c + 1 ∧ 2 ≤ c) (h : Inside false σ c p i) :
    (0 ≤ fold true σ c i ∧ fold true σ c i < p) ∧ 0 ≤ fold true σ c (i - 1) ∧ fold true σ c (i - 1) < p := by
  unfold Inside at h
  unfold fold
  by_cases hon : Parity.on σ
  · obtain ⟨h1, h2⟩ := hs hon
    rw [if_pos hon] at h
    simp only [if_pos hon, if_true, Bool.false_eq_true, if_false] at h ⊢
    split_ifs <;> refine ⟨⟨by omega, by omega⟩, by omega, by omega⟩
  · rw [if_neg hon] at h
    simp only [if_neg hon]
    exact ⟨⟨by omega, by omega⟩, by omega, by omega⟩

theorem efieldx_whole (P : Par K) (M : Parity) (N : Ix) (hs : ParitySized P M) (hn : EvenSized M N)
    (e : Ix → EF K) (he : EvenE P M e) (i j k : ℤ) (hi : Inside false M.x M.ci P.pisize i)
    (hj : Inside false M.y M.cj P.pjsize j) (hk : Inside false M.z M.ck P.pksize k) :
    efieldx P M N e (i, j, k) =
      ((mirrorE M e (i, j, k)).x + (mirrorE M e (i - 1, j, k)).x) / 2 := by
  obtain ⟨hx, hy, hz⟩ := hs
  obtain ⟨nx, ny, nz⟩ := hn
  have fi := fold_inside hx hi
  have fj := fold_inside hy hj
  have fk := fold_inside hz hk
  have key := line_sum (i := i) hx (fun t => (e (t, fold false M.y M.cj j, fold false M.z M.ck k)).x) fun hon =>
    (he.1 hon _ _ fj.1 fj.2.1 fk.1 fk.2.1).1
  simp only [efieldx, mirrorE, mirror]
  rw [otherSide_eq hx nx, otherSide_eq hy ny, otherSide_eq hz nz, signInt_eq hy, signInt_eq hz]
  linear_combination (-1 / 2 * sign false M.y M.cj j * sign false M.z M.ck k) * key

theorem efieldy_whole (P : Par K) (M : Parity) (N : Ix) (hs : ParitySized P M) (hn : EvenSized M N)
    (e : Ix → EF K) (he : EvenE P M e) (i j k : ℤ) (hi : Inside false M.x M.ci P.pisize i)
    (hj : Inside false M.y M.cj P.pjsize j) (hk : Inside false M.z M.ck P.pksize k) :
    efieldy P M N e (i, j, k) =
      ((mirrorE M e (i, j, k)).y + (mirrorE M e (i, j - 1, k)).y) / 2 := by
  obtain ⟨hx, hy, hz⟩ := hs
  obtain ⟨nx, ny, nz⟩ := hn
  have fi := fold_inside hx hi
  have fj := fold_inside hy hj
  have fk := fold_inside hz hk
  have key := line_sum (i := j) hy (fun t => (e (fold false M.x M.ci i, t, fold false M.z M.ck k)).y) fun hon =>
    (he.2.1 hon _ _ fi.1 fi.2.1 fk.1 fk.2.1).1
  simp only [efieldy, mirrorE, mirror]
  rw [otherSide_eq hx nx, otherSide_eq hy ny, otherSide_eq hz nz, signInt_eq hx, signInt_eq hz]
  linear_combination (-1 / 2 * sign false M.x M.ci i * sign false M.z M.ck k) * key

theorem efieldz_whole (P : Par K) (M : Parity) (N : Ix) (hs : ParitySized P M) (hn : EvenSized M N)
    (e : Ix → EF K) (he : EvenE P M e) (i j k : ℤ) (hi : Inside false M.x M.ci P.pisize i)
    (hj : Inside false M.y M.cj P.pjsize j) (hk : Inside false M.z M.ck P.pksize k) :
    efieldz P M N e (i, j, k) =
      ((mirrorE M e (i, j, k)).z + (mirrorE M e (i, j, k - 1)).z) / 2 := by
  obtain ⟨hx, hy, hz⟩ := hs
  obtain ⟨nx, ny, nz⟩ := hn
  have fi := fold_inside hx hi
  have fj := fold_inside hy hj
  have fk := fold_inside hz hk
  have key := line_sum (i := k) hz (fun t => (e (fold false M.x M.ci i, fold false M.y M.cj j, t)).z) fun hon =>
    (he.2.2 hon _ _ fi.1 fi.2.1 fj.1 fj.2.1).1
  simp only [efieldz, mirrorE, mirror]
  rw [otherSide_eq hx nx, otherSide_eq hy ny, otherSide_eq hz nz, signInt_eq hx, signInt_eq hy]
  linear_combination (-1 / 2 * sign false M.x M.ci i * sign false M.y M.cj j) * key

/-- With zeros before the first cell the magnetic field is symmetric at the planes up to the edge. -/
theorem evenH_edge (P : Par K) (M : Parity) (hs : ParitySized P M) (h : Ix → HF K) (he : EvenH P M h)
    (h0 : EdgeH h) :
    (Parity.on M.x → ∀ j k, 0 ≤ j → j < P.pjsize → 0 ≤ k → k < P.pksize →
      (h (M.ci, j, k)).y = M.x * (h (M.ci - 1, j, k)).y ∧ (h (M.ci, j, k)).z = M.x * (h (M.ci - 1, j, k)).z) ∧
    (Parity.on M.y → ∀ i k, 0 ≤ i → i < P.pisize → 0 ≤ k → k < P.pksize →
      (h (i, M.cj, k)).x = M.y * (h (i, M.cj - 1, k)).x ∧ (h (i, M.cj, k)).z = M.y * (h (i, M.cj - 1, k)).z) ∧
    (Parity.on M.z → ∀ i j, 0 ≤ i → i < P.pisize → 0 ≤ j → j < P.pjsize →
      (h (i, j, M.ck)).x = M.z * (h (i, j, M.ck - 1)).x ∧ (h (i, j, M.ck)).y = M.z * (h (i, j, M.ck - 1)).y) := by
  refine ⟨fun hon a b a0 a1 b0 b1 => ?_, fun hon a b a0 a1 b0 b1 => ?_, fun hon a b a0 a1 b0 b1 => ?_⟩
  · by_cases hz : a = 0 ∨ b = 0
    · have p := h0 (M.ci, a, b) (by rcases hz with z | z <;> simp [z])
      have q := h0 (M.ci - 1, a, b) (by rcases hz with z | z <;> simp [z])
      rw [p.2.1, p.2.2, q.2.1, q.2.2]
      simp
    · have p := he.1 hon a b (by omega) a1 (by omega) b1
      exact ⟨p.1, p.2.1⟩
  · by_cases hz : a = 0 ∨ b = 0
    · have p := h0 (a, M.cj, b) (by rcases hz with z | z <;> simp [z])
      have q := h0 (a, M.cj - 1, b) (by rcases hz with z | z <;> simp [z])
      rw [p.1, p.2.2, q.1, q.2.2]
      simp
    · have p := he.2.1 hon a b (by omega) a1 (by omega) b1
      exact ⟨p.1, p.2.1⟩
  · by_cases hz : a = 0 ∨ b = 0
    · have p := h0 (a, b, M.ck) (by rcases hz with z | z <;> simp [z])
      have q := h0 (a, b, M.ck - 1) (by rcases hz with z | z <;> simp [z])
      rw [p.1, p.2.1, q.1, q.2.1]
      simp
    · have p := he.2.2 hon a b (by omega) a1 (by omega) b1
      exact ⟨p.1, p.2.1⟩

theorem hfieldx_whole (P : Par K) (M : Parity) (N : Ix) (hs : ParitySized P M) (hn : EvenSized M N)
    (h : Ix → HF K) (he : EvenH P M h) (h0 : EdgeH h) (i j k : ℤ) (hi : Inside false M.x M.ci P.pisize i)
    (hj : Inside false M.y M.cj P.pjsize j) (hk : Inside false M.z M.ck P.pksize k) :
    hfieldx P M N h (i, j, k) =
      ((mirrorH M h (i, j, k)).x + (mirrorH M h (i, j - 1, k)).x + (mirrorH M h (i, j, k - 1)).x +
        (mirrorH M h (i, j - 1, k - 1)).x) / 4 := by
  have ed := evenH_edge P M hs h he h0
  obtain ⟨hx, hy, hz⟩ := hs
  obtain ⟨nx, ny, nz⟩ := hn
  have fi := fold_inside hx hi
  have fj := fold_inside hy hj
  have nk := fold_near hz hk
  have key1 := line_sum (i := j) hy (fun t => (h (fold false M.x M.ci i, t, fold true M.z M.ck k)).x) fun hon =>
    (ed.2.1 hon _ _ (by have := fi.1; omega) fi.2.1 nk.1.1 nk.1.2).1
  have key2 := line_sum (i := j) hy (fun t => (h (fold false M.x M.ci i, t, fold true M.z M.ck (k - 1))).x) fun hon =>
    (ed.2.1 hon _ _ (by have := fi.1; omega) fi.2.1 nk.2.1 nk.2.2).1
  have key3 := line_sum (i := k) hz (fun t => (h (fold false M.x M.ci i, fold false M.y M.cj j, t)).x) fun hon =>
    (ed.2.2 hon _ _ (by have := fi.1; omega) fi.2.1 (by have := fj.1; omega) fj.2.1).1
  have key4 := line_sum (i := k) hz (fun t => (h (fold false M.x M.ci i, fold false M.y M.cj j - 1, t)).x) fun hon =>
    (ed.2.2 hon _ _ (by have := fi.1; omega) fi.2.1 (by have := fj.1; omega) (by have := fj.2.1; omega)).1
  simp only [hfieldx, mirrorH, mirror]
  rw [otherSide_eq hx nx, otherSide_eq hy ny, otherSide_eq hz nz, signInt_eq hx]
  linear_combination (-1 / 4 * sign false M.x M.ci i * sign true M.z M.ck k) * key1 +
    (-1 / 4 * sign false M.x M.ci i * sign true M.z M.ck (k - 1)) * key2 +
    (-1 / 4 * sign false M.x M.ci i * signHalf P.pjsize M.y j) * (key3 + key4)

theorem hfieldy_whole (P : Par K) (M : Parity) (N : Ix) (hs : ParitySized P M) (hn : EvenSized M N)
    (h : Ix → HF K) (he : EvenH P M h) (h0 : EdgeH h) (i j k : ℤ) (hi : Inside false M.x M.ci P.pisize i)
    (hj : Inside false M.y M.cj P.pjsize j) (hk : Inside false M.z M.ck P.pksize k) :
    hfieldy P M N h (i, j, k) =
      ((mirrorH M h (i, j, k)).y + (mirrorH M h (i - 1, j, k)).y + (mirrorH M h (i, j, k - 1)).y +
        (mirrorH M h (i - 1, j, k - 1)).y) / 4 := by
  have ed := evenH_edge P M hs h he h0
  obtain ⟨hx, hy, hz⟩ := hs
  obtain ⟨nx, ny, nz⟩ := hn
  have fj := fold_inside hy hj
  have fi := fold_inside hx hi
  have nk := fold_near hz hk
  have key1 := line_sum (i := i) hx (fun t => (h (t, fold false M.y M.cj j, fold true M.z M.ck k)).y) fun hon =>
    (ed.1 hon _ _ (by have := fj.1; omega) fj.2.1 nk.1.1 nk.1.2).1
  have key2 := line_sum (i := i) hx (fun t => (h (t, fold false M.y M.cj j, fold true M.z M.ck (k - 1))).y) fun hon =>
    (ed.1 hon _ _ (by have := fj.1; omega) fj.2.1 nk.2.1 nk.2.2).1
  have key3 := line_sum (i := k) hz (fun t => (h (fold false M.x M.ci i, fold false M.y M.cj j, t)).y) fun hon =>
    (ed.2.2 hon _ _ (by have := fi.1; omega) fi.2.1 (by have := fj.1; omega) fj.2.1).2
  have key4 := line_sum (i := k) hz (fun t => (h (fold false M.x M.ci i - 1, fold false M.y M.cj j, t)).y) fun hon =>
    (ed.2.2 hon _ _ (by have := fi.1; omega) (by have := fi.2.1; omega) (by have := fj.1; omega) fj.2.1).2
  simp only [hfieldy, mirrorH, mirror]
  rw [otherSide_eq hx nx, otherSide_eq hy ny, otherSide_eq hz nz, signInt_eq hy]
  linear_combination (-1 / 4 * sign false M.y M.cj j * sign true M.z M.ck k) * key1 +
    (-1 / 4 * sign false M.y M.cj j * sign true M.z M.ck (k - 1)) * key2 +
    (-1 / 4 * sign false M.y M.cj j * signHalf P.pisize M.x i) * (key3 + key4)

theorem hfieldz_whole (P : Par K) (M : Parity) (N : Ix) (hs : ParitySized P M) (hn : EvenSized M N)
    (h : Ix → HF K) (he : EvenH P M h) (h0 : EdgeH h) (i j k : ℤ) (hi : Inside false M.x M.ci P.pisize i)
    (hj : Inside false M.y M.cj P.pjsize j) (hk : Inside false M.z M.ck P.pksize k) :
    hfieldz P M N h (i, j, k) =
      ((mirrorH M h (i, j, k)).z + (mirrorH M h (i - 1, j, k)).z + (mirrorH M h (i, j - 1, k)).z +
        (mirrorH M h (i - 1, j - 1, k)).z) / 4 := by
  have ed := evenH_edge P M hs h he h0
  obtain ⟨hx, hy, hz⟩ := hs
  obtain ⟨nx, ny, nz⟩ := hn
  have fk := fold_inside hz hk
  have fi := fold_inside hx hi
  have nj := fold_near hy hj
  have key1 := line_sum (i := i) hx (fun t => (h (t, fold true M.y M.cj j, fold false M.z M.ck k)).z) fun hon =>
    (ed.1 hon _ _ nj.1.1 nj.1.2 (by have := fk.1; omega) fk.2.1).2
  have key2 := line_sum (i := i) hx (fun t => (h (t, fold true M.y M.cj (j - 1), fold false M.z M.ck k)).z) fun hon =>
    (ed.1 hon _ _ nj.2.1 nj.2.2 (by have := fk.1; omega) fk.2.1).2
  have key3 := line_sum (i := j) hy (fun t => (h (fold false M.x M.ci i, t, fold false M.z M.ck k)).z) fun hon =>
    (ed.2.1 hon _ _ (by have := fi.1; omega) fi.2.1 (by have := fk.1; omega) fk.2.1).2
  have key4 := line_sum (i := j) hy (fun t => (h (fold false M.x M.ci i - 1, t, fold false M.z M.ck k)).z) fun hon =>
    (ed.2.1 hon _ _ (by have := fi.1; omega) (by have := fi.2.1; omega) (by have := fk.1; omega) fk.2.1).2
  simp only [hfieldz, mirrorH, mirror]
  rw [otherSide_eq hx nx, otherSide_eq hy ny, otherSide_eq hz nz, signInt_eq hz]
  linear_combination (-1 / 4 * sign false M.z M.ck k * sign true M.y M.cj j) * key1 +
    (-1 / 4 * sign false M.z M.ck k * sign true M.y M.cj (j - 1)) * key2 +
    (-1 / 4 * sign false M.z M.ck k * signHalf P.pisize M.x i) * (key3 + key4)

/-- The electric field at a node: means of the two values around it. -/
def nodeE {L : Type*} [Field L] (f : Ix → EF L) : Ix → L × L × L := fun (i, j, k) =>
  (((f (i, j, k)).x + (f (i - 1, j, k)).x) / 2, ((f (i, j, k)).y + (f (i, j - 1, k)).y) / 2,
    ((f (i, j, k)).z + (f (i, j, k - 1)).z) / 2)

/-- The magnetic field at a node: means of the four values around it. -/
def nodeH {L : Type*} [Field L] (f : Ix → HF L) : Ix → L × L × L := fun (i, j, k) =>
  (((f (i, j, k)).x + (f (i, j - 1, k)).x + (f (i, j, k - 1)).x + (f (i, j - 1, k - 1)).x) / 4,
    ((f (i, j, k)).y + (f (i - 1, j, k)).y + (f (i, j, k - 1)).y + (f (i - 1, j, k - 1)).y) / 4,
    ((f (i, j, k)).z + (f (i - 1, j, k)).z + (f (i, j - 1, k)).z + (f (i - 1, j - 1, k)).z) / 4)

/-- The vector product. -/
def cross {L : Type*} [Field L] (a b : L × L × L) : L × L × L :=
  (a.2.1 * b.2.2 - a.2.2 * b.2.1, a.2.2 * b.1 - a.1 * b.2.2, a.1 * b.2.1 - a.2.1 * b.1)

/-- **C158**: with mirror planes and an even number of cells the reported electric field, magnetic field
and energy flux are those of the mirrored fields, at every node of both halves. -/
theorem values_whole (P : Par K) (M : Parity) (N : Ix) (hs : ParitySized P M) (hn : EvenSized M N)
    (e : Ix → EF K) (h : Ix → HF K) (he : EvenE P M e) (hh : EvenH P M h) (h0 : EdgeH h) (i j k : ℤ)
    (hi : Inside false M.x M.ci P.pisize i) (hj : Inside false M.y M.cj P.pjsize j)
    (hk : Inside false M.z M.ck P.pksize k) :
    (efieldx P M N e (i, j, k), efieldy P M N e (i, j, k), efieldz P M N e (i, j, k)) =
      nodeE (mirrorE M e) (i, j, k) ∧
    (hfieldx P M N h (i, j, k), hfieldy P M N h (i, j, k), hfieldz P M N h (i, j, k)) =
      nodeH (mirrorH M h) (i, j, k) ∧
    gridS P M N e h (i, j, k) = cross (nodeE (mirrorE M e) (i, j, k)) (nodeH (mirrorH M h) (i, j, k)) := by
  have a := efieldx_whole P M N hs hn e he i j k hi hj hk
  have b := efieldy_whole P M N hs hn e he i j k hi hj hk
  have c := efieldz_whole P M N hs hn e he i j k hi hj hk
  have a' := hfieldx_whole P M N hs hn h hh h0 i j k hi hj hk
  have b' := hfieldy_whole P M N hs hn h hh h0 i j k hi hj hk
  have c' := hfieldz_whole P M N hs hn h hh h0 i j k hi hj hk
  unfold gridS
  rw [a, b, c, a', b', c']
  exact ⟨rfl, rfl, rfl⟩

/-- The sizes of `Hz_parity` with even numbers of cells are those above. -/
theorem hzParity_even (P : Par K) (x y z a b c : ℤ) :
    EvenSized (hzParity P x y z (2 * a) (2 * b) (2 * c)).2 (2 * a, 2 * b, 2 * c) := by
  unfold EvenSized hzParity
  dsimp only
  refine ⟨fun _ => ?_, fun _ => ?_, fun _ => ?_⟩ <;> omega

/-- An electric field along `x` before and behind the plane `c` on the line `(j, k)`. -/
def streak (σ c j k : ℤ) : Ix → EF K := fun d =>
  ⟨if d = (c - 1, j, k) then 1 else if d = (c, j, k) then (σ : K) else 0, 0, 0, 0, 0, 0, 0, 0, 0⟩

/-- **C158**, violation: when the whole grid has `2 c + 1` cells the node `c + 2` is reported with the
field of the node `c - 1`, not with that of its mirror image `c - 2`. -/
theorem odd_fails (h2 : (2 : K) ≠ 0) (P : Par K) (σ c J L j k : ℤ) (hσ : Parity.on σ) (hc : 3 ≤ c) :
    let Q := hzParity P σ 0 0 (2 * c + 1) J L
    EvenE Q.1 Q.2 (streak σ c j k : Ix → EF K) ∧ Inside false Q.2.x Q.2.ci Q.1.pisize (c + 2) ∧
    efieldx Q.1 Q.2 (2 * c + 1, J, L) (streak σ c j k) (c + 2, j, k) ≠
      (nodeE (mirrorE Q.2 (streak σ c j k)) (c + 2, j, k)).1 := by
  intro Q
  have h0 : ¬Parity.on 0 := by unfold Parity.on; omega
  have hci : Q.2.ci = c := by simp only [Q, hzParity]; omega
  have hx : Q.2.x = σ := rfl
  have hy : Q.2.y = 0 := rfl
  have hz : Q.2.z = 0 := rfl
  have hp : Q.1.pisize = c + 1 := by
    simp only [Q, hzParity, if_pos hσ, if_neg h0]; omega
  have h1 : (σ : K) ≠ 0 := by rcases hσ with h | h <;> rw [h] <;> norm_num
  refine ⟨⟨fun _ a b _ _ _ _ => ⟨?_, fun _ => ⟨rfl, rfl⟩⟩, fun h => absurd (hy ▸ h) h0, fun h => absurd (hz ▸ h) h0⟩, ?_, ?_⟩
  · rw [hci, hx]
    simp only [streak, Prod.mk.injEq]
    by_cases hab : a = j ∧ b = k
    · rw [if_neg (by omega), if_pos ⟨trivial, hab⟩, if_pos ⟨trivial, hab⟩, mul_one]
    · rw [if_neg (by omega), if_neg (by tauto), if_neg (by tauto), if_neg (by tauto), mul_zero]
  · unfold Inside
    rw [hx, if_pos hσ, if_neg (by simp), hci]
    omega
  · have l : efieldx Q.1 Q.2 (2 * c + 1, J, L) (streak σ c j k) (c + 2, j, k) = (σ : K) / 2 := by
      simp only [efieldx, signHalf, signInt, otherSide, hx, hy, hz, h0, hp, and_false, if_false]
      rw [if_pos ⟨by omega, hσ⟩, if_pos ⟨by omega, hσ⟩, show 2 * c + 1 - (c + 2) = c - 1 by ring]
      simp only [streak, Prod.mk.injEq]
      rw [if_pos (by simp), if_neg (by omega), if_neg (by omega)]
      ring
    have r : (nodeE (mirrorE Q.2 (streak σ c j k : Ix → EF K)) (c + 2, j, k)).1 = 0 := by
      simp only [nodeE, mirrorE, mirror, sign, fold, hx, hy, hz, hci, if_pos hσ, if_neg h0, if_true]
      rw [if_pos (by omega), if_pos (by omega), if_pos (by omega), if_pos (by omega)]
      simp only [streak, Prod.mk.injEq]
      rw [if_neg (by omega), if_neg (by omega), if_neg (by omega), if_neg (by omega)]
      ring
    rw [l, r]
    exact div_ne_zero h1 h2

end

/-! ### The crystal -/

open Complex

/-- No mirror planes. -/
def noMirror : Parity := ⟨0, 0, 0, 0, 0, 0⟩

theorem off_zero : ¬Parity.on 0 := by unfold Parity.on; omega

/-- The reported electric field with its imaginary part. -/
noncomputable def shownE (P : Par ℝ) (N : Ix) (e : EA ℝ) (c : Ix) : ℂ × ℂ × ℂ :=
  (cx (efieldx P noMirror N (fun d => (e d).1) c) (efieldx P noMirror N (fun d => (e d).2) c),
   cx (efieldy P noMirror N (fun d => (e d).1) c) (efieldy P noMirror N (fun d => (e d).2) c),
   cx (efieldz P noMirror N (fun d => (e d).1) c) (efieldz P noMirror N (fun d => (e d).2) c))

/-- The reported magnetic field with its imaginary part. -/
noncomputable def shownH (P : Par ℝ) (N : Ix) (h : HA ℝ) (c : Ix) : ℂ × ℂ × ℂ :=
  (cx (hfieldx P noMirror N (fun d => (h d).1) c) (hfieldx P noMirror N (fun d => (h d).2) c),
   cx (hfieldy P noMirror N (fun d => (h d).1) c) (hfieldy P noMirror N (fun d => (h d).2) c),
   cx (hfieldz P noMirror N (fun d => (h d).1) c) (hfieldz P noMirror N (fun d => (h d).2) c))

theorem shownE_eq (P : Par ℝ) (N : Ix) (e : EA ℝ) (c : Ix) : shownE P N e c = nodeE (fun d => combE (e d)) c := by
  obtain ⟨i, j, k⟩ := c
  simp only [shownE, nodeE, efieldx, efieldy, efieldz, signHalf, signInt, otherSide, noMirror, off_zero, and_false,
    if_false, combE, cx, Prod.mk.injEq]
  push_cast
  refine ⟨by ring, by ring, by ring⟩

theorem shownH_eq (P : Par ℝ) (N : Ix) (h : HA ℝ) (c : Ix) : shownH P N h c = nodeH (fun d => combH (h d)) c := by
  obtain ⟨i, j, k⟩ := c
  simp only [shownH, nodeH, hfieldx, hfieldy, hfieldz, signHalf, signInt, otherSide, noMirror, off_zero, and_false,
    if_false, combH, cx, Prod.mk.injEq]
  push_cast
  refine ⟨by ring, by ring, by ring⟩

theorem blochEx_low (P : Par ℝ) (C S : ℝ) (h1 : 1 ≤ P.isize) (e : EA ℝ) (j k : ℤ) (hj : 1 ≤ j ∧ j < P.pjsize)
    (hk : 1 ≤ k ∧ k < P.pksize) : blochEx P C S e (0, j, k) = backEx C S (e (0, j, k)) (e (P.isize, j, k)) :=
  (copies_pairs (pairs P.pjsize P.pksize) (fun jk => (0, jk))
    (fun jk => (P.isize + 1, jk)) (fun jk => (P.isize, jk)) (fun jk => (1, jk))
    (backEx C S) (forthEyz C S)
    (fun _ _ h => (Prod.mk.inj h).2) (fun _ _ h => (Prod.mk.inj h).2)
    (fun t u h => by have := (Prod.mk.inj h).1; omega) (fun t u h => by have := (Prod.mk.inj h).1; omega)
    (fun t u h => by have := (Prod.mk.inj h).1; omega) (fun t u h => by have := (Prod.mk.inj h).1; omega)
    (fun t u h => by have := (Prod.mk.inj h).1; omega) (fun _ _ => rfl) (fun _ _ => rfl) e).1 (j, k)
    (mem_pairs.2 ⟨hj, hk⟩)

theorem blochEy_low (P : Par ℝ) (C S : ℝ) (h1 : 1 ≤ P.jsize) (e : EA ℝ) (i k : ℤ) (hi : 1 ≤ i ∧ i < P.pisize)
    (hk : 1 ≤ k ∧ k < P.pksize) : blochEy P C S e (i, 0, k) = backEy C S (e (i, 0, k)) (e (i, P.jsize, k)) :=
  (copies_pairs (pairs P.pisize P.pksize) (fun t => (t.1, 0, t.2))
    (fun t => (t.1, P.jsize + 1, t.2)) (fun t => (t.1, P.jsize, t.2)) (fun t => (t.1, 1, t.2))
    (backEy C S) (forthExz C S)
    (mk_inj _) (mk_inj _) (mk_ne (by omega)) (mk_ne (by omega)) (mk_ne (by omega)) (mk_ne (by omega))
    (mk_ne (by omega)) (fun _ _ => rfl) (fun _ _ => rfl) e).1 (i, k) (mem_pairs.2 ⟨hi, hk⟩)

theorem combE_backEx (θ : ℝ) (d s : EF ℝ × EF ℝ) :
    (combE (backEx (Real.cos θ) (Real.sin θ) d s)).x = (smulE (exp (-(θ * I))) (combE s)).x := by
  simp only [combE, backEx, smulE]
  exact back_phase θ _ _

theorem combE_backEy (θ : ℝ) (d s : EF ℝ × EF ℝ) :
    (combE (backEy (Real.cos θ) (Real.sin θ) d s)).y = (smulE (exp (-(θ * I))) (combE s)).y := by
  simp only [combE, backEy, smulE]
  exact back_phase θ _ _

/-- **C158**: after a step the reported electric field is that of the crystal at every node of the cell. -/
theorem crystal_valuesE (P : Par ℝ) (kx ky : ℝ) (N : Ix) (hs : BlochSized P) (s : EA ℝ × HA ℝ) (i j k : ℤ)
    (hi : 1 ≤ i ∧ i ≤ P.isize) (hj : 1 ≤ j ∧ j ≤ P.jsize) (hk : 1 ≤ k ∧ k < P.pksize) :
    shownE P N (propagateBloch P kx ky s).1 (i, j, k) =
      nodeE (crystalE P.isize P.jsize 0 kx ky (propagateBloch P kx ky s).1) (i, j, k) := by
  obtain ⟨hI, hI', hJ, hJ'⟩ := hs
  set θx := kx * 2 * Real.pi with hθx
  set θy := ky * 2 * Real.pi with hθy
  obtain ⟨e0, he0⟩ : ∃ e0, e0 = loopsE P s.2 s.1 := ⟨_, rfl⟩
  obtain ⟨e1, he1⟩ : ∃ e1, e1 = blochEx P (Real.cos θx) (Real.sin θx) e0 := ⟨_, rfl⟩
  obtain ⟨e2, he2⟩ : ∃ e2, e2 = blochEy P (Real.cos θy) (Real.sin θy) e1 := ⟨_, rfl⟩
  have hprop : (propagateBloch P kx ky s).1 = e2 := by rw [he2, he1, he0]; rfl
  rw [hprop, shownE_eq]
  obtain ⟨_, ax'⟩ := blochEx_apply P (Real.cos θx) (Real.sin θx) hI e0
  obtain ⟨_, ay'⟩ := blochEy_apply P (Real.cos θy) (Real.sin θy) hJ e1
  rw [← he1] at ax'
  rw [← he2] at ay'
  have ec : ∀ c : Ix, InCell P.isize P.jsize c → e2 c = e0 c := fun c hc => by
    rw [ay' c (by have := hc.2; omega) (by have := hc.2; omega),
      ax' c (by have := hc.1; omega) (by have := hc.1; omega)]
  have inn : ∀ a b d : ℤ, (1 ≤ a ∧ a ≤ P.isize) → (1 ≤ b ∧ b ≤ P.jsize) →
      crystalE P.isize P.jsize 0 kx ky e2 (a, b, d) = combE (e2 (a, b, d)) := fun a b d ha hb =>
    crystalE_self kx ky e2 ⟨ha, hb⟩
  have lowx : (combE (e2 (i - 1, j, k))).x = (crystalE P.isize P.jsize 0 kx ky e2 (i - 1, j, k)).x := by
    by_cases h : i = 1
    · subst h
      rw [show (1 : ℤ) - 1 = 0 by ring, crystalE_at 0 kx ky hI hJ e2 (i := 0) (-1) 0 P.isize j k ⟨hI, le_rfl⟩ hj
        (by ring) (by ring), ec (P.isize, j, k) ⟨⟨hI, le_rfl⟩, hj⟩,
        ay' _ (by dsimp only; omega) (by dsimp only; omega), he1, blochEx_low P _ _ hI e0 j k ⟨hj.1, by omega⟩ hk,
        phase_eq' kx ky θx (-1) 0 (by rw [hθx]; push_cast; ring)]
      exact combE_backEx θx _ _
    · rw [inn _ _ _ (by omega) hj]
  have lowy : (combE (e2 (i, j - 1, k))).y = (crystalE P.isize P.jsize 0 kx ky e2 (i, j - 1, k)).y := by
    by_cases h : j = 1
    · subst h
      rw [show (1 : ℤ) - 1 = 0 by ring, crystalE_at 0 kx ky hI hJ e2 (j := 0) 0 (-1) i P.jsize k hi ⟨hJ, le_rfl⟩
        (by ring) (by ring), ec (i, P.jsize, k) ⟨hi, hJ, le_rfl⟩, he2,
        blochEy_low P _ _ hJ e1 i k ⟨hi.1, by omega⟩ hk, ax' (i, P.jsize, k) (by dsimp only; omega) (by dsimp only; omega),
        phase_eq' kx ky θy 0 (-1) (by rw [hθy]; push_cast; ring)]
      exact combE_backEy θy _ _
    · rw [inn _ _ _ hi (by omega)]
  simp only [nodeE, lowx, lowy, inn i j k hi hj, inn i j (k - 1) hi hj]

/-- **C158**: whenever the boundary values are those of the crystal, as they are after every step (C156),
the reported magnetic field is that of the crystal, except `Hz` at the first node of both directions. -/
theorem crystal_valuesH_partial (P : Par ℝ) (kx ky : ℝ) (N : Ix) (h : HA ℝ) (hh : SyncH P 0 kx ky h) (i j k : ℤ)
    (hi : 1 ≤ i ∧ i ≤ P.isize) (hj : 1 ≤ j ∧ j ≤ P.jsize) (hk : 2 ≤ k ∧ k < P.pksize) :
    let v := shownH P N h (i, j, k)
    let w := nodeH (crystalH P.isize P.jsize 0 kx ky h) (i, j, k)
    v.1 = w.1 ∧ v.2.1 = w.2.1 ∧ (¬(i = 1 ∧ j = 1) → v.2.2 = w.2.2) := by
  intro v w
  have hv : v = nodeH (fun d => combH (h d)) (i, j, k) := shownH_eq P N h _
  have inn : ∀ a b d : ℤ, (1 ≤ a ∧ a ≤ P.isize) → (1 ≤ b ∧ b ≤ P.jsize) →
      crystalH P.isize P.jsize 0 kx ky h (a, b, d) = combH (h (a, b, d)) := fun a b d ha hb =>
    crystalH_self kx ky h ⟨ha, hb⟩
  have lowx : ∀ b d, (1 ≤ b ∧ b ≤ P.jsize) → (1 ≤ d ∧ d < P.pksize) →
      (combH (h (i - 1, b, d))).y = (crystalH P.isize P.jsize 0 kx ky h (i - 1, b, d)).y ∧
      (combH (h (i - 1, b, d))).z = (crystalH P.isize P.jsize 0 kx ky h (i - 1, b, d)).z := fun b d hb hd => by
    by_cases h1 : i = 1
    · subst h1
      exact hh.1 b d hb.1 hb.2 hd.1 hd.2
    · rw [inn _ _ _ (by omega) hb]
      exact ⟨rfl, rfl⟩
  have lowy : ∀ a d, (1 ≤ a ∧ a ≤ P.isize) → (1 ≤ d ∧ d < P.pksize) →
      (combH (h (a, j - 1, d))).x = (crystalH P.isize P.jsize 0 kx ky h (a, j - 1, d)).x ∧
      (combH (h (a, j - 1, d))).z = (crystalH P.isize P.jsize 0 kx ky h (a, j - 1, d)).z := fun a d ha hd => by
    by_cases h1 : j = 1
    · subst h1
      exact hh.2 a d ha.1 ha.2 hd.1 hd.2
    · rw [inn _ _ _ ha (by omega)]
      exact ⟨rfl, rfl⟩
  have k0 : 1 ≤ k ∧ k < P.pksize := by omega
  have k1 : 1 ≤ k - 1 ∧ k - 1 < P.pksize := by omega
  rw [hv]
  refine ⟨?_, ?_, fun hn => ?_⟩
  · simp only [w, nodeH, inn i j _ hi hj, (lowy i _ hi k0).1, (lowy i _ hi k1).1]
  · simp only [w, nodeH, inn i j _ hi hj, (lowx j _ hj k0).1, (lowx j _ hj k1).1]
  · have corner : (combH (h (i - 1, j - 1, k))).z = (crystalH P.isize P.jsize 0 kx ky h (i - 1, j - 1, k)).z := by
      by_cases h1 : i = 1
      · exact (lowx (j - 1) k (by omega) k0).2
      · exact (lowy (i - 1) k (by omega) k0).2
    simp only [w, nodeH, inn i j _ hi hj, (lowx j _ hj k0).2, (lowy i _ hi k0).2, corner]

/-- No step ever writes the magnetic arrays at `(0, 0, k)`. -/
theorem corner_never (P : Par ℝ) (kx ky : ℝ) (hs : BlochSized P) (s : EA ℝ × HA ℝ) (k : ℤ) (n : ℕ) :
    ((propagateBloch P kx ky)^[n] s).2 (0, 0, k) = s.2 (0, 0, k) := by
  induction n with
  | zero => rfl
  | succ n ih =>
    rw [Function.iterate_succ_apply']
    obtain ⟨r, hr⟩ : ∃ r, r = (propagateBloch P kx ky)^[n] s := ⟨_, rfl⟩
    rw [← hr] at ih ⊢
    rw [← ih]
    unfold propagateBloch
    dsimp only
    have hn : ((0, 0, k) : Ix) ∉ cells P := fun h => by have := mem_cells.1 h; dsimp only at this; omega
    obtain ⟨hI, hI', hJ, hJ'⟩ := hs
    rw [blochHy, (copies_pairs (pairs P.pisize P.pksize) (fun t => (t.1, P.jsize + 1, t.2))
      (fun t => (t.1, 0, t.2)) (fun t => (t.1, 1, t.2)) (fun t => (t.1, P.jsize, t.2)) (forthHy _ _) (backHxz _ _)
      (mk_inj _) (mk_inj _) (mk_ne (by omega)) (mk_ne (by omega)) (mk_ne (by omega)) (mk_ne (by omega))
      (mk_ne (by omega)) (fun _ _ => rfl) (fun _ _ => rfl) _).2.2 (0, 0, k) fun t ht => ?_]
    · rw [blochHx, (copies_pairs (pairs P.pjsize P.pksize) (fun jk => (P.isize + 1, jk))
        (fun jk => (0, jk)) (fun jk => (1, jk)) (fun jk => (P.isize, jk)) (forthHx _ _) (backHyz _ _)
        (fun _ _ h => (Prod.mk.inj h).2) (fun _ _ h => (Prod.mk.inj h).2)
        (fun t u h => by have := (Prod.mk.inj h).1; omega) (fun t u h => by have := (Prod.mk.inj h).1; omega)
        (fun t u h => by have := (Prod.mk.inj h).1; omega) (fun t u h => by have := (Prod.mk.inj h).1; omega)
        (fun t u h => by have := (Prod.mk.inj h).1; omega) (fun _ _ => rfl) (fun _ _ => rfl) _).2.2 (0, 0, k) fun t ht => ?_]
      · simp only [loopsH]
        rw [sweep_cells, if_neg hn, sweep_cells, if_neg hn]
      · have := mem_pairs.1 ht
        obtain ⟨a, b⟩ := t
        simp only [ne_eq, Prod.mk.injEq, not_and] at this ⊢
        omega
    · have := mem_pairs.1 ht
      obtain ⟨a, b⟩ := t
      simp only [ne_eq, Prod.mk.injEq, not_and] at this ⊢
      omega

/-- **C158**, violation: from arrays with zeros in the corner, after any number of steps, `Hz` at the first
node of the cell is not that of the crystal, unless `Hz` vanishes in the last cell. -/
theorem corner_fails (P : Par ℝ) (kx ky : ℝ) (N : Ix) (hs : BlochSized P) (s : EA ℝ × HA ℝ) (k : ℤ) (n : ℕ)
    (hk : 1 ≤ k ∧ k < P.pksize) (hh : SyncH P 0 kx ky ((propagateBloch P kx ky)^[n] s).2)
    (h0 : (combH (s.2 (0, 0, k))).z = 0)
    (hz : (combH (((propagateBloch P kx ky)^[n] s).2 (P.isize, P.jsize, k))).z ≠ 0) :
    (shownH P N ((propagateBloch P kx ky)^[n] s).2 (1, 1, k)).2.2 ≠
      (nodeH (crystalH P.isize P.jsize 0 kx ky ((propagateBloch P kx ky)^[n] s).2) (1, 1, k)).2.2 := by
  have hc := corner_never P kx ky hs s k n
  obtain ⟨h, hh'⟩ : ∃ h, h = ((propagateBloch P kx ky)^[n] s).2 := ⟨_, rfl⟩
  rw [← hh'] at hh hz hc ⊢
  obtain ⟨hI, _, hJ, _⟩ := hs
  rw [shownH_eq]
  have e1 := crystalH_self (U := 0) kx ky h (c := (1, 1, k)) (I := P.isize) (J := P.jsize) ⟨⟨le_rfl, hI⟩, le_rfl, hJ⟩
  have e2 := (hh.1 1 k le_rfl hJ hk.1 hk.2).2
  have e3 := (hh.2 1 k le_rfl hI hk.1 hk.2).2
  have e4 := crystalH_at 0 kx ky hI hJ h (i := 0) (j := 0) (-1) (-1) P.isize P.jsize k ⟨hI, le_rfl⟩ ⟨hJ, le_rfl⟩
    (by ring) (by ring)
  simp only [nodeH, show (1 : ℤ) - 1 = 0 by ring, e1, e2, e3, e4, hc, h0, smulH]
  intro heq
  have : blochPhase kx ky (-1) (-1) * (combH (h (P.isize, P.jsize, k))).z = 0 := by linear_combination -4 * heq
  rcases mul_eq_zero.1 this with h | h
  · exact exp_ne_zero _ h
  · exact hz h

/-! ### Other cells -/

theorem periodic_re (θ a b : ℝ) : a * Real.cos θ - b * Real.sin θ = (exp (θ * I) * cx a b).re := by
  rw [exp_mul_I]
  simp [cx, cos_ofReal_re, sin_ofReal_re, cos_ofReal_im, sin_ofReal_im]
  ring

/-- **C158**: the value reported for the cell number `h` along `x` is the real part of the crystal's. -/
theorem periodicX_crystal (kx ky : ℝ) (h : ℤ) (a b : ℝ) :
    periodicX kx h a b = (blochPhase kx ky h 0 * cx a b).re := by
  rw [phase_eq kx ky (2 * Real.pi * h * kx) h 0 (by push_cast; ring), ← periodic_re]
  rfl

/-- **C158**: the same along `y`. -/
theorem periodicY_crystal (kx ky : ℝ) (h : ℤ) (a b : ℝ) :
    periodicY ky h a b = (blochPhase kx ky 0 h * cx a b).re := by
  rw [phase_eq kx ky (2 * Real.pi * h * ky) 0 h (by push_cast; ring), ← periodic_re]
  rfl

/-- **C158**: after a step the reported electric field in the cell number `h` is that of the crystal. -/
theorem crystal_cellE (P : Par ℝ) (kx ky : ℝ) (N : Ix) (hs : BlochSized P) (s : EA ℝ × HA ℝ) (h i j k : ℤ)
    (hi : 1 ≤ i ∧ i ≤ P.isize) (hj : 1 ≤ j ∧ j ≤ P.jsize) (hk : 1 ≤ k ∧ k < P.pksize) :
    let e := (propagateBloch P kx ky s).1
    let w := nodeE (crystalE P.isize P.jsize 0 kx ky e)
    periodicX kx h (efieldx P noMirror N (fun d => (e d).1) (i, j, k)) (efieldx P noMirror N (fun d => (e d).2) (i, j, k)) =
      (w (i + h * P.isize, j, k)).1.re ∧
    periodicX kx h (efieldy P noMirror N (fun d => (e d).1) (i, j, k)) (efieldy P noMirror N (fun d => (e d).2) (i, j, k)) =
      (w (i + h * P.isize, j, k)).2.1.re ∧
    periodicX kx h (efieldz P noMirror N (fun d => (e d).1) (i, j, k)) (efieldz P noMirror N (fun d => (e d).2) (i, j, k)) =
      (w (i + h * P.isize, j, k)).2.2.re ∧
    periodicY ky h (efieldx P noMirror N (fun d => (e d).1) (i, j, k)) (efieldx P noMirror N (fun d => (e d).2) (i, j, k)) =
      (w (i, j + h * P.jsize, k)).1.re ∧
    periodicY ky h (efieldy P noMirror N (fun d => (e d).1) (i, j, k)) (efieldy P noMirror N (fun d => (e d).2) (i, j, k)) =
      (w (i, j + h * P.jsize, k)).2.1.re ∧
    periodicY ky h (efieldz P noMirror N (fun d => (e d).1) (i, j, k)) (efieldz P noMirror N (fun d => (e d).2) (i, j, k)) =
      (w (i, j + h * P.jsize, k)).2.2.re := by
  intro e w
  have key := crystal_valuesE P kx ky N hs s i j k hi hj hk
  obtain ⟨hI, _, hJ, _⟩ := hs
  have bx : ∀ a b c, crystalE P.isize P.jsize 0 kx ky e (a + h * P.isize, b, c) =
      smulE (blochPhase kx ky h 0) (crystalE P.isize P.jsize 0 kx ky e (a, b, c)) := fun a b c => by
    have := crystalE_bloch 0 kx ky hI hJ e h 0 a b c
    rwa [show a + h * P.isize + 0 * 0 = a + h * P.isize by ring, show b + 0 * P.jsize = b by ring] at this
  have by_ : ∀ a b c, crystalE P.isize P.jsize 0 kx ky e (a, b + h * P.jsize, c) =
      smulE (blochPhase kx ky 0 h) (crystalE P.isize P.jsize 0 kx ky e (a, b, c)) := fun a b c => by
    have := crystalE_bloch 0 kx ky hI hJ e 0 h a b c
    rwa [show a + 0 * P.isize + h * 0 = a by ring] at this
  have wx : w (i + h * P.isize, j, k) = (blochPhase kx ky h 0 * (w (i, j, k)).1,
      blochPhase kx ky h 0 * (w (i, j, k)).2.1, blochPhase kx ky h 0 * (w (i, j, k)).2.2) := by
    simp only [w, nodeE, show i + h * P.isize - 1 = i - 1 + h * P.isize by ring, bx, smulE, Prod.mk.injEq]
    refine ⟨by ring, by ring, by ring⟩
  have wy : w (i, j + h * P.jsize, k) = (blochPhase kx ky 0 h * (w (i, j, k)).1,
      blochPhase kx ky 0 h * (w (i, j, k)).2.1, blochPhase kx ky 0 h * (w (i, j, k)).2.2) := by
    simp only [w, nodeE, show j + h * P.jsize - 1 = j - 1 + h * P.jsize by ring, by_, smulE, Prod.mk.injEq]
    refine ⟨by ring, by ring, by ring⟩
  rw [wx, wy]
  simp only [periodicX_crystal kx ky, periodicY_crystal kx ky]
  have k' : shownE P N e (i, j, k) = w (i, j, k) := key
  rw [← k']
  exact ⟨rfl, rfl, rfl, rfl, rfl, rfl⟩

/-- **C158**: for both directions the reported value is right for all fields exactly when the missing
factor `2π` does not matter. -/
theorem periodicXY_right_iff (kx ky : ℝ) (h v : ℤ) :
    (∀ a b, periodicXY kx ky h v a b = (blochPhase kx ky h v * cx a b).re) ↔
      exp ((v * ky : ℝ) * I) = exp ((2 * Real.pi * v * ky : ℝ) * I) := by
  have e1 : ∀ a b, periodicXY kx ky h v a b =
      (exp ((2 * Real.pi * h * kx : ℝ) * I) * exp ((v * ky : ℝ) * I) * cx a b).re := fun a b => by
    rw [← exp_add, show ((2 * Real.pi * h * kx : ℝ) : ℂ) * I + ((v * ky : ℝ) : ℂ) * I =
      ((2 * Real.pi * h * kx + v * ky : ℝ) : ℂ) * I by push_cast; ring, ← periodic_re]
    rfl
  have e2 : blochPhase kx ky h v = exp ((2 * Real.pi * h * kx : ℝ) * I) * exp ((2 * Real.pi * v * ky : ℝ) * I) := by
    rw [← exp_add, phase_eq kx ky (2 * Real.pi * h * kx + 2 * Real.pi * v * ky) h v (by ring)]
    congr 1
    push_cast
    ring
  constructor
  · intro H
    have a := H 1 0
    have b := H 0 1
    rw [e1, e2] at a b
    have u : ∀ z : ℂ, z * cx 1 0 = z := fun z => by simp [cx]
    have u' : ∀ z : ℂ, (z * cx 0 1).re = -z.im := fun z => by simp [cx]
    rw [u, u] at a
    rw [u', u', neg_inj] at b
    exact mul_left_cancel₀ (exp_ne_zero _) (Complex.ext a b)
  · intro H a b
    rw [e1, e2, H]

/-- **C158**, violation: with half a period per cell along `y` the neighbouring cell has the opposite field,
but a real field is reported there with a positive factor. -/
theorem periodicXY_fails (kx : ℝ) (a : ℝ) (ha : 0 < a) :
    (blochPhase kx (1 / 2) 0 1 * cx a 0).re = -a ∧ 0 < periodicXY kx (1 / 2) 0 1 a 0 := by
  constructor
  · rw [phase_eq kx (1 / 2) Real.pi 0 1 (by push_cast; ring), ← periodic_re]
    simp
  · unfold periodicXY
    have : 0 < Real.cos (1 / 2) := Real.cos_pos_of_mem_Ioo ⟨by linarith [Real.one_le_pi_div_two], by linarith [Real.one_le_pi_div_two]⟩
    norm_num
    positivity

/-! ### Rows and columns -/

/-- Number of the node of the crystal of an index in a cell. -/
def nodeOf (n : ℤ) (c : ℤ × ℤ) : ℤ := c.1 + c.2 * n

/-- **C158**: a printed row of `m` cells has exactly the nodes whose number is not a multiple of the size. -/
theorem row_nodes (n m p : ℤ) (hn : 1 ≤ n) :
    p ∈ (printedRow n m).map (nodeOf n) ↔ 0 < p ∧ p < m * n ∧ ¬n ∣ p := by
  simp only [printedRow, List.mem_map, List.mem_flatMap, mem_irange, nodeOf]
  constructor
  · rintro ⟨_, ⟨h, hh, i, hi, rfl⟩, rfl⟩
    dsimp only
    refine ⟨by nlinarith [mul_nonneg hh.1 (by omega : 0 ≤ n)], by nlinarith, fun hd => ?_⟩
    have : n ∣ i := (Int.dvd_add_left (Dvd.intro_left h rfl)).1 hd
    have := Int.le_of_dvd (by omega) this
    omega
  · rintro ⟨h0, h1, hd⟩
    have hm := Int.emod_add_mul_ediv p n
    have l := Int.emod_nonneg p (by omega : n ≠ 0)
    have l' := Int.emod_lt_of_pos p (by omega : 0 < n)
    have l0 : p % n ≠ 0 := fun h => hd (Int.dvd_of_emod_eq_zero h)
    refine ⟨(p % n, p / n), ⟨p / n, ⟨Int.ediv_nonneg h0.le (by omega), Int.ediv_lt_of_lt_mul (by omega) h1⟩,
      p % n, ⟨by omega, l'⟩, rfl⟩, by dsimp only; rw [mul_comm]; exact hm⟩

/-- **C158**, violation: the last node of every cell is left out, between two neighbours that are printed. -/
theorem row_fails (n m h : ℤ) (hn : 2 ≤ n) (hh : 1 ≤ h ∧ h < m) :
    h * n ∉ (printedRow n m).map (nodeOf n) ∧ h * n - 1 ∈ (printedRow n m).map (nodeOf n) ∧
      h * n + 1 ∈ (printedRow n m).map (nodeOf n) := by
  have hd : ∀ t, ¬n ∣ t → ¬n ∣ h * n + t := fun t ht h' => ht ((Int.dvd_add_right (Dvd.intro_left h rfl)).1 h')
  have hp : n ≤ h * n := by nlinarith
  have hm : h * n + n ≤ m * n := by nlinarith
  refine ⟨?_, ?_, ?_⟩
  · rw [row_nodes n m _ (by omega)]
    exact fun h' => h'.2.2 (Dvd.intro_left h rfl)
  · rw [row_nodes n m _ (by omega)]
    exact ⟨by omega, by omega, hd (-1) fun h' => by
      have := Int.le_of_dvd (by norm_num) ((dvd_neg).1 h')
      omega⟩
  · rw [row_nodes n m _ (by omega)]
    exact ⟨by omega, by omega, hd 1 fun h' => by
      have := Int.le_of_dvd (by norm_num) h'
      omega⟩

theorem irange_pairwise (a b : ℤ) : (irange a b).Pairwise (· < ·) := by
  unfold irange
  rw [List.pairwise_map]
  exact List.pairwise_lt_range.imp fun h => by omega

/-- **C158**: a printed column of one cell goes downwards. -/
theorem column_partial (n : ℤ) : ((printedColumn n 1).map (nodeOf n)).Pairwise (· > ·) := by
  have : (irange 0 1) = [0] := by decide
  unfold printedColumn
  rw [this]
  simp only [List.flatMap_cons, List.flatMap_nil, List.append_nil, List.map_map]
  rw [List.map_reverse, List.pairwise_reverse, List.pairwise_map]
  exact (irange_pairwise 1 n).imp fun h => by simpa [nodeOf] using h

/-- **C158**, violation: a printed column of several cells does not: the node `1` comes before the node
`2 n - 1`. -/
theorem column_fails (n m : ℤ) (hn : 2 ≤ n) (hm : 2 ≤ m) :
    ¬((printedColumn n m).map (nodeOf n)).Pairwise (· > ·) := by
  intro h
  have : irange 0 m = 0 :: 1 :: irange 2 m := by
    unfold irange
    rw [show (m - 0).toNat = (m - 2).toNat + 1 + 1 by omega, List.range_succ_eq_map, List.range_succ_eq_map]
    simp only [List.map_cons, List.map_map]
    refine congrArg₂ _ rfl (congrArg₂ _ rfl (List.map_congr_left fun t _ => ?_))
    simp only [Function.comp]
    push_cast
    ring
  unfold printedColumn at h
  rw [this] at h
  simp only [List.flatMap_cons, List.map_append] at h
  have h' := (List.pairwise_append.1 h).2.2 1 ?_ (2 * n - 1) ?_
  · omega
  · rw [List.mem_map]
    exact ⟨(1, 0), List.mem_map.2 ⟨1, List.mem_reverse.2 (mem_irange.2 ⟨le_rfl, by omega⟩), rfl⟩, by norm_num [nodeOf]⟩
  · rw [List.mem_append]
    left
    rw [List.mem_map]
    exact ⟨(n - 1, 1), List.mem_map.2 ⟨n - 1, List.mem_reverse.2 (mem_irange.2 ⟨by omega, by omega⟩), rfl⟩,
      by simp only [nodeOf]; ring⟩

/-! ### Examples -/

example : let Q := hzParity vacuum 1 (-1) 1 8 8 8
    (efieldx Q.1 Q.2 (8, 8, 8) glint.1 (6, 6, 6), efieldy Q.1 Q.2 (8, 8, 8) glint.1 (6, 6, 6),
      efieldz Q.1 Q.2 (8, 8, 8) glint.1 (6, 6, 6)) = nodeE (mirrorE Q.2 glint.1) (6, 6, 6) := by
  intro Q
  refine (values_whole Q.1 Q.2 (8, 8, 8)
    (hzParity_sized vacuum 1 (-1) 1 8 8 8 (by norm_num) (by norm_num) (by norm_num))
    (hzParity_even vacuum 1 (-1) 1 4 4 4) glint.1 glint.2 ?_ ?_ (fun c _ => ⟨rfl, rfl, rfl⟩) 6 6 6 ?_ ?_ ?_).1
  · refine ⟨fun _ j k _ _ _ _ => ?_, fun _ i k _ _ _ _ => ?_, fun _ i j _ _ _ _ => ?_⟩ <;> simp [glint, Q, hzParity]
  · refine ⟨fun _ j k _ _ _ _ => ?_, fun _ i k _ _ _ _ => ?_, fun _ i j _ _ _ _ => ?_⟩ <;> simp [glint, Q, hzParity]
  all_goals simp [Inside, Q, hzParity, Parity.on]

example : efieldz (hzParity vacuum 1 (-1) 1 8 8 8).1 (hzParity vacuum 1 (-1) 1 8 8 8).2 (8, 8, 8) glint.1 (6, 6, 6) = -1 / 2 := by
  norm_num [efieldz, hzParity, signHalf, signInt, otherSide, Parity.on, glint, vacuum]

/-- A cell of `1 × 2` vacuum cells with half a period along `x`: after one step from a constant electric field
the first node is wrong. -/
example : let s : EA ℝ × HA ℝ := (fun _ => (⟨0, 1, 0, 0, 0, 0, 0, 0, 0⟩, ⟨0, 0, 0, 0, 0, 0, 0, 0, 0⟩),
      fun _ => (⟨0, 0, 0, 0, 0, 0⟩, ⟨0, 0, 0, 0, 0, 0⟩))
    (shownH (blochBox 1) (1, 2, 4) ((propagateBloch (blochBox 1) (1 / 2) 0)^[1] s).2 (1, 1, 2)).2.2 ≠
      (nodeH (crystalH 1 2 0 (1 / 2) 0 ((propagateBloch (blochBox 1) (1 / 2) 0)^[1] s).2) (1, 1, 2)).2.2 := by
  intro s
  obtain ⟨h1, h2, h3⟩ := blochBox_ok 1 le_rfl
  have st := bloch_step (blochBox 1) (1 / 2) 0 h1 h2 h3 s (zero_sync _ _ _ _)
  refine corner_fails (blochBox 1) (1 / 2) 0 (1, 2, 4) h1 s 2 1 ⟨by norm_num, by norm_num [blochBox]⟩ st.2
    (by simp [s, combH, cx]) ?_
  have p := (st.1 1 2 2 ⟨by norm_num, by norm_num [blochBox]⟩).2
  have q1 := (st.1 1 2 2 ⟨by norm_num, by norm_num [blochBox]⟩).1
  have q2 := (st.1 2 2 2 ⟨by norm_num, by norm_num [blochBox]⟩).1
  have q3 := (st.1 1 3 2 ⟨by norm_num, by norm_num [blochBox]⟩).1
  have hc : ∀ c, crystalH (blochBox 1).isize (blochBox 1).jsize 0 (1 / 2) 0 s.2 c = ⟨0, 0, 0, 0, 0, 0⟩ := fun c => by
    simp [crystalH, s, combH, smulH, cx]
  rw [crystalH_self (1 / 2) 0 _ (by norm_num [InCell, blochBox])] at p
  have hI : (blochBox 1).isize = 1 := rfl
  have hJ : (blochBox 1).jsize = 2 := rfl
  simp only [hI, hJ] at p q1 q2 q3 ⊢
  simp only [hI, hJ] at hc
  have hf : crystalH 1 2 0 (1 / 2) 0 s.2 = fun _ => ⟨0, 0, 0, 0, 0, 0⟩ := funext hc
  rw [hf] at p q1 q2 q3
  have E : ∀ i j, (i = 1 ∨ i = 2) → (j = 2 ∨ j = 3) →
      stepE (bulk (blochBox 1) 0) (fun _ => ⟨0, 0, 0, 0, 0, 0⟩) (i, j, 2) (crystalE 1 2 0 (1 / 2) 0 s.1 (i, j, 2)) =
        crystalE 1 2 0 (1 / 2) 0 s.1 (i, j, 2) := by
    intro i j _ _
    unfold stepE
    rw [if_pos ⟨rfl, by simp [bulk, blochBox, cellOf]⟩]
    simp [normalE, curlHx, curlHy, curlHz]
  rw [E 1 2 (Or.inl rfl) (Or.inl rfl)] at q1
  rw [E 2 2 (Or.inr rfl) (Or.inl rfl)] at q2
  rw [E 1 3 (Or.inl rfl) (Or.inr rfl)] at q3
  have e1 : crystalE 1 2 0 (1 / 2) 0 s.1 (1, 2, 2) = ⟨0, 1, 0, 0, 0, 0, 0, 0, 0⟩ := by
    simp [crystalE, s, smulE, combE, cx, phaseOf, blochPhase]
  have e2 : (crystalE 1 2 0 (1 / 2) 0 s.1 (2, 2, 2)).y = -1 := by
    simp [crystalE, s, smulE, combE, cx, phaseOf, blochPhase]
    rw [show 2 * (Real.pi : ℂ) * 2⁻¹ * I = Real.pi * I by ring, exp_pi_mul_I]
  have e3 : (crystalE 1 2 0 (1 / 2) 0 s.1 (1, 3, 2)).x = 0 := by
    simp [crystalE, s, smulE, combE, cx]
  rw [Function.iterate_one, p]
  unfold stepH
  rw [if_pos ⟨rfl, by simp [bulk, blochBox, cellOf]⟩]
  simp only [normalH, curlEz, show (1 : ℤ) + 1 = 2 by norm_num, show (2 : ℤ) + 1 = 3 by norm_num, q1, q2, q3, e1, e2, e3]
  norm_num [bulk, complexPar, blochBox, tus]

end OpenMS.Fdtd
