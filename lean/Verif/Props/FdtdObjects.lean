import Verif.Model.FdtdObjects

/-!
# C162: objects of the Maxwell solver

The permittivity of a cell is the mean over its thousand points of the last object that contains the point, provided
each object that has none of the corners of the cell has none of its points, and each object that has all corners has all
points; the second holds for convex objects.  A small sphere and the hole of a shell are counterexamples.  The
Euler rotation is an isometry, the random spheres do not overlap; cones, contours and the heights of blocks are not right.
-/

namespace OpenMS.FdtdObjects

set_option linter.unusedSectionVars false

variable {K : Type*} [Field K] [LinearOrder K] [IsStrictOrderedRing K] [FloorRing K]

/-! ### Averages -/

/-- The material at a point: that of the last body that contains it. -/
def material (back : K) (bodies : List (Body K)) (p : K × K × K) : K :=
  match (bodies.filter fun b => b.inside p.1 p.2.1 p.2.2).getLast? with
  | none => back
  | some b => b.epsilon

/-- An object is resolved by the corners of a cell. -/
def Resolved (i j k : K) (b : Body K) : Prop :=
  ((∀ p ∈ corners i j k, b.inside p.1 p.2.1 p.2.2 = false) → ∀ p ∈ points i j k, b.inside p.1 p.2.1 p.2.2 = false) ∧
    ((∀ p ∈ corners i j k, b.inside p.1 p.2.1 p.2.2 = true) → ∀ p ∈ points i j k, b.inside p.1 p.2.1 p.2.2 = true)

theorem material_append (back : K) (bs : List (Body K)) (b : Body K) (p : K × K × K) :
    material back (bs ++ [b]) p = if b.inside p.1 p.2.1 p.2.2 then b.epsilon else material back bs p := by
  unfold material
  rw [List.filter_append]
  by_cases h : b.inside p.1 p.2.1 p.2.2 = true
  · rw [if_pos h, show [b].filter (fun b => b.inside p.1 p.2.1 p.2.2) = [b] by simp [h], List.getLast?_concat]
  · rw [if_neg h, show [b].filter (fun b => b.inside p.1 p.2.1 p.2.2) = [] by simp [h], List.append_nil]

theorem points_length (i j k : K) : (points i j k).length = 1000 := by
  have h : ∀ {α β : Type _} (l : List α) (f : α → List β) (n : ℕ), (∀ a, (f a).length = n) →
      (l.flatMap f).length = l.length * n := fun l f n hf => by
    rw [List.length_flatMap, List.map_congr_left (g := fun _ => n) fun a _ => hf a, List.map_const', List.sum_replicate,
      smul_eq_mul]
  have hs : ∀ i : K, (steps i).length = 10 := fun i => by unfold steps; simp
  unfold points
  rw [h _ _ 100 fun x => by rw [h _ _ 10 fun y => by rw [List.length_map, hs], hs], hs]

theorem fold_cells (back : K) (i j k : K) (bs : List (Body K)) (h : ∀ b ∈ bs, Resolved i j k b) :
    let s := bs.foldl (meanStep i j k) ⟨back, (points i j k).map fun p => (p, back), false⟩
    s.cells = (points i j k).map (fun p => (p, material back bs p)) ∧
      (s.part = false → ∀ p ∈ points i j k, material back bs p = s.epsilon) := by
  induction bs using List.reverseRecOn with
  | nil => exact ⟨rfl, fun _ _ _ => rfl⟩
  | append_singleton bs b ih =>
    obtain ⟨h1, h2⟩ := ih fun b' hb => h b' (List.mem_append_left _ hb)
    obtain ⟨r0, r1⟩ := h b (List.mem_append_right _ (List.mem_singleton.2 rfl))
    rw [List.foldl_append, List.foldl_cons, List.foldl_nil]
    obtain ⟨s, hs⟩ : ∃ s, s = bs.foldl (meanStep i j k) ⟨back, (points i j k).map fun p => (p, back), false⟩ := ⟨_, rfl⟩
    rw [← hs] at h1 h2 ⊢
    unfold meanStep
    by_cases c0 : ((corners i j k).all fun p => !b.inside p.1 p.2.1 p.2.2) = true
    · rw [if_pos c0]
      have c0' := r0 fun p hp => by simpa using List.all_eq_true.1 c0 p hp
      have e : ∀ p ∈ points i j k, material back (bs ++ [b]) p = material back bs p := fun p hp => by
        rw [material_append, c0' p hp]
        rfl
      refine ⟨?_, fun hp p hpp => ?_⟩
      · rw [h1]
        exact List.map_congr_left fun p hp => by rw [e p hp]
      · rw [e p hpp, h2 hp p hpp]
    · rw [if_neg c0]
      by_cases c1 : ((corners i j k).all fun p => b.inside p.1 p.2.1 p.2.2) = true
      · rw [if_pos c1]
        have c1' := r1 fun p hp => List.all_eq_true.1 c1 p hp
        have e : ∀ p ∈ points i j k, material back (bs ++ [b]) p = b.epsilon := fun p hp => by
          rw [material_append, c1' p hp, if_pos rfl]
        refine ⟨?_, fun _ p hpp => e p hpp⟩
        dsimp only
        rw [h1, List.map_map]
        exact List.map_congr_left fun p hp => by rw [e p hp]; rfl
      · rw [if_neg c1]
        refine ⟨?_, fun hp => absurd hp (by simp)⟩
        dsimp only
        rw [h1, List.map_map]
        exact List.map_congr_left fun p hp => by rw [material_append]; rfl

/-- **C162** (part): if every object is resolved by the corners of the cell, the permittivity is the mean of the material
over the thousand points. -/
theorem average_partial (back : K) (i j k : K) (bs : List (Body K)) (h : ∀ b ∈ bs, Resolved i j k b) :
    averageEpsilon back bs i j k = ((points i j k).map (material back bs)).sum / 1000 := by
  obtain ⟨h1, h2⟩ := fold_cells back i j k bs h
  unfold averageEpsilon
  dsimp only
  obtain ⟨s, hs⟩ : ∃ s, s = bs.foldl (meanStep i j k) ⟨back, (points i j k).map fun p => (p, back), false⟩ := ⟨_, rfl⟩
  rw [← hs] at h1 h2 ⊢
  have hdiv : ∀ l : List K, (l.map fun x => x / 1000).sum = l.sum / 1000 := fun l => by
    induction l with
    | nil => simp
    | cons a l ih => rw [List.map_cons, List.sum_cons, ih, List.sum_cons, add_div]
  by_cases hp : s.part = true
  · rw [if_pos hp, h1, List.map_map, ← hdiv, List.map_map]
    rfl
  · rw [if_neg hp]
    have h3 := h2 (by simpa using hp)
    have h4 : (points i j k).map (material back bs) = (points i j k).map fun _ => s.epsilon :=
      List.map_congr_left h3
    rw [h4, List.map_const', List.sum_replicate, points_length, nsmul_eq_mul]
    norm_num

theorem fold_bounds (back m M : K) (i j k : K) (bs : List (Body K)) (hb : m ≤ back ∧ back ≤ M)
    (h : ∀ b ∈ bs, m ≤ b.epsilon ∧ b.epsilon ≤ M) :
    let s := bs.foldl (meanStep i j k) ⟨back, (points i j k).map fun p => (p, back), false⟩
    (m ≤ s.epsilon ∧ s.epsilon ≤ M) ∧ (∀ c ∈ s.cells, m ≤ c.2 ∧ c.2 ≤ M) ∧ s.cells.length = 1000 := by
  induction bs using List.reverseRecOn with
  | nil =>
    refine ⟨hb, fun c hc => ?_, ?_⟩
    · obtain ⟨p, -, rfl⟩ := List.mem_map.1 hc
      exact hb
    · rw [List.foldl_nil, List.length_map, points_length]
  | append_singleton bs b ih =>
    obtain ⟨h1, h2, h3⟩ := ih fun b' hb => h b' (List.mem_append_left _ hb)
    have hbb := h b (List.mem_append_right _ (List.mem_singleton.2 rfl))
    rw [List.foldl_append, List.foldl_cons, List.foldl_nil]
    obtain ⟨s, hs⟩ : ∃ s, s = bs.foldl (meanStep i j k) ⟨back, (points i j k).map fun p => (p, back), false⟩ := ⟨_, rfl⟩
    rw [← hs] at h1 h2 h3 ⊢
    unfold meanStep
    split_ifs
    · exact ⟨h1, h2, h3⟩
    · refine ⟨hbb, fun c hc => ?_, ?_⟩
      · obtain ⟨p, -, rfl⟩ := List.mem_map.1 hc
        exact hbb
      · rw [List.length_map, h3]
    · refine ⟨h1, fun c hc => ?_, ?_⟩
      · obtain ⟨p, hp, rfl⟩ := List.mem_map.1 hc
        dsimp only
        split_ifs
        · exact hbb
        · exact h2 p hp
      · rw [List.length_map, h3]

theorem range_sum (n : ℕ) (g : ℕ → K) : ((List.range n).map g).sum = ∑ i ∈ Finset.range n, g i := by
  induction n with
  | zero => simp
  | succ n ih => rw [List.range_succ, List.map_append, List.sum_append, ih, Finset.sum_range_succ]; simp

theorem points_sum (i j k : K) (f : K × K × K → K) :
    ((points i j k).map f).sum = ∑ a ∈ Finset.range 10, ∑ b ∈ Finset.range 10, ∑ c ∈ Finset.range 10,
      f (i - 9 / 20 + a / 10, j - 9 / 20 + b / 10, k - 9 / 20 + c / 10) := by
  have h : ∀ {α : Type _} (l : List K) (g : K → List α) (f : α → K), ((l.flatMap g).map f).sum = (l.map fun x => ((g x).map f).sum).sum := by
    intro α l g f
    induction l with
    | nil => simp
    | cons x l ih => rw [List.flatMap_cons, List.map_append, List.sum_append, ih]; rfl
  unfold points
  rw [h]
  simp only [h, List.map_map, steps]
  rw [range_sum]
  refine Finset.sum_congr rfl fun a _ => ?_
  dsimp only [Function.comp]
  rw [range_sum]
  refine Finset.sum_congr rfl fun b _ => ?_
  dsimp only [Function.comp]
  rw [range_sum]
  rfl

/-- **C162** (part): the three permittivities of a node are the means over the centers of the thousand equal parts of the cells around the
places of the three components of the electric field, half a cell from the node. -/
theorem epsilon_places_partial (back : K) (bs : List (Body K)) (i j k : ℤ)
    (hx : ∀ b ∈ bs, Resolved ((i : K) + 1 / 2) j k b) (hy : ∀ b ∈ bs, Resolved (i : K) (j + 1 / 2) k b)
    (hz : ∀ b ∈ bs, Resolved (i : K) j (k + 1 / 2) b) :
    (makeEpsilon back bs i j k).1 = (∑ a ∈ Finset.range 10, ∑ b ∈ Finset.range 10, ∑ c ∈ Finset.range 10,
        material back bs (i + (2 * a + 1) / 20, j - 1 / 2 + (2 * b + 1) / 20, k - 1 / 2 + (2 * c + 1) / 20)) / 1000 ∧
      (makeEpsilon back bs i j k).2.1 = (∑ a ∈ Finset.range 10, ∑ b ∈ Finset.range 10, ∑ c ∈ Finset.range 10,
        material back bs (i - 1 / 2 + (2 * a + 1) / 20, j + (2 * b + 1) / 20, k - 1 / 2 + (2 * c + 1) / 20)) / 1000 ∧
      (makeEpsilon back bs i j k).2.2 = (∑ a ∈ Finset.range 10, ∑ b ∈ Finset.range 10, ∑ c ∈ Finset.range 10,
        material back bs (i - 1 / 2 + (2 * a + 1) / 20, j - 1 / 2 + (2 * b + 1) / 20, k + (2 * c + 1) / 20)) / 1000 := by
  unfold makeEpsilon
  dsimp only
  have e1 : ∀ (x : K) (a : ℕ), x - 9 / 20 + a / 10 = x - 1 / 2 + (2 * a + 1) / 20 := fun x a => by ring
  have e2 : ∀ (x : K) (a : ℕ), x + 1 / 2 - 1 / 2 + (2 * a + 1) / 20 = x + (2 * a + 1) / 20 := fun x a => by ring
  refine ⟨?_, ?_, ?_⟩
  · rw [average_partial _ _ _ _ _ hx, points_sum]
    simp only [e1, e2]
  · rw [average_partial _ _ _ _ _ hy, points_sum]
    simp only [e1, e2]
  · rw [average_partial _ _ _ _ _ hz, points_sum]
    simp only [e1, e2]

/-- A body that fills the whole space: the permittivities are its own. -/
example : (makeEpsilon (1 : ℚ) [⟨fun _ _ _ => true, 4⟩] 0 0 0).1 = 4 := by
  rw [(epsilon_places_partial 1 [⟨fun _ _ _ => true, 4⟩] 0 0 0 (by simp [Resolved, corners]) (by simp [Resolved, corners])
    (by simp [Resolved, corners])).1]
  simp [material]
  norm_num

/-- **C162**: blocks and rods along `x` and `y` have their centers and sizes: a point belongs to them exactly if its distance from the
center along each edge is at most half of the size; the heights of blocks are those of `non_uniform_z_to_i`. -/
theorem extents (e : Env K) (o : Obj K) (i j k : K) :
    (o.shape = .block → (inObject e o i j k = some true ↔ 2 * |i - o.centeri| ≤ o.size1 ∧ 2 * |j - o.centerj| ≤ o.size2 ∧
      (e.zToI (o.centerk - o.size3 / 2) : K) ≤ k ∧ k ≤ e.zToI (o.centerk + o.size3 / 2))) ∧
    (o.shape = .rodX → (inObject e o i j k = some true ↔
      (j - o.centerj) ^ 2 + (k - o.centerk) ^ 2 ≤ o.size1 ^ 2 ∧ 2 * |i - o.centeri| ≤ o.size2)) ∧
    (o.shape = .rodY → (inObject e o i j k = some true ↔
      (i - o.centeri) ^ 2 + (k - o.centerk) ^ 2 ≤ o.size1 ^ 2 ∧ 2 * |j - o.centerj| ≤ o.size2)) ∧
    (o.shape = .rod → (inObject e o i j k = some true ↔ (i - o.centeri) ^ 2 + (j - o.centerj) ^ 2 ≤ o.size1 ^ 2 ∧
      (e.zToI (o.centerk - o.size2 / 2) : K) ≤ k ∧ k ≤ e.zToI (o.centerk + o.size2 / 2))) ∧
    (o.shape = .ellipse → (inObject e o i j k = some true ↔ (i - o.centeri) ^ 2 + ((j - o.centerj) / o.size3) ^ 2 ≤ o.size1 ^ 2 ∧
      (e.zToI (o.centerk - o.size2 / 2) : K) ≤ k ∧ k ≤ e.zToI (o.centerk + o.size2 / 2))) := by
  have ab : ∀ x c s : K, 2 * |x - c| ≤ s ↔ c - s / 2 ≤ x ∧ x ≤ c + s / 2 := by
    intro x c s
    rw [← le_div_iff₀' (by norm_num : (0 : K) < 2), abs_le]
    constructor
    · rintro ⟨h1, h2⟩; constructor <;> linarith
    · rintro ⟨h1, h2⟩; constructor <;> linarith
  have hh : ∀ s : K, 1 / 2 * s = s / 2 := fun s => by ring
  refine ⟨fun h => ?_, fun h => ?_, fun h => ?_, fun h => ?_, fun h => ?_⟩ <;> unfold inObject <;>
    simp only [h, Option.some.injEq, decide_eq_true_eq, ab, sq, hh, and_assoc, div_mul_div_comm]
  rw [add_comm ((k - o.centerk) * (k - o.centerk))]

/-- A block of width four, at distance two from its center. -/
example (e : Env ℚ) (h : e.zToI (-1) = -1) (h' : e.zToI 1 = 1) : inObject e (plain .block 0 0 0 4 4 2 1) 2 (-2) 1 = some true := by
  rw [(extents e _ 2 (-2) 1).1 rfl]
  simp [plain, h, h']
  norm_num

/-- **C162**: the permittivity of a cell lies between the smallest and the largest of the background and the
objects, for all objects. -/
theorem average_bounds (back m M : K) (i j k : K) (bs : List (Body K)) (hb : m ≤ back ∧ back ≤ M)
    (h : ∀ b ∈ bs, m ≤ b.epsilon ∧ b.epsilon ≤ M) :
    m ≤ averageEpsilon back bs i j k ∧ averageEpsilon back bs i j k ≤ M := by
  obtain ⟨h1, h2, h3⟩ := fold_bounds back m M i j k bs hb h
  unfold averageEpsilon
  dsimp only
  obtain ⟨s, hs⟩ : ∃ s, s = bs.foldl (meanStep i j k) ⟨back, (points i j k).map fun p => (p, back), false⟩ := ⟨_, rfl⟩
  rw [← hs] at h1 h2 h3 ⊢
  split_ifs
  · have key : ∀ l : List ((K × K × K) × K), (∀ c ∈ l, m ≤ c.2 ∧ c.2 ≤ M) →
        l.length * (m / 1000) ≤ (l.map fun c => c.2 / 1000).sum ∧
          (l.map fun c => c.2 / 1000).sum ≤ l.length * (M / 1000) := fun l hl => by
      induction l with
      | nil => simp
      | cons a l ih =>
        obtain ⟨i1, i2⟩ := ih fun c hc => hl c (List.mem_cons_of_mem _ hc)
        obtain ⟨a1, a2⟩ := hl a List.mem_cons_self
        rw [List.map_cons, List.sum_cons, List.length_cons]
        push_cast
        have b1 : m / 1000 ≤ a.2 / 1000 := by gcongr
        have b2 : a.2 / 1000 ≤ M / 1000 := by gcongr
        constructor <;> linarith
    obtain ⟨k1, k2⟩ := key s.cells h2
    rw [h3] at k1 k2
    push_cast at k1 k2
    constructor
    · linarith
    · linarith
  · exact h1

/-- A body is convex. -/
def Convexish (b : Body K) : Prop :=
  ∀ p q : K × K × K, b.inside p.1 p.2.1 p.2.2 = true → b.inside q.1 q.2.1 q.2.2 = true → ∀ t : K, 0 ≤ t → t ≤ 1 →
    b.inside (p.1 + t * (q.1 - p.1)) (p.2.1 + t * (q.2.1 - p.2.1)) (p.2.2 + t * (q.2.2 - p.2.2)) = true

theorem steps_mem (i : K) {x : K} (h : x ∈ steps i) : ∃ t : K, 0 ≤ t ∧ t ≤ 1 ∧ x = i - 1 / 2 + t * (i + 1 / 2 - (i - 1 / 2)) := by
  obtain ⟨a, ha, rfl⟩ := List.mem_map.1 h
  have h10 : (a : K) ≤ 9 := by
    have := List.mem_range.1 ha
    exact_mod_cast (show a ≤ 9 by omega)
  have h0 : (0 : K) ≤ a := Nat.cast_nonneg a
  refine ⟨1 / 20 + a / 10, ?_, ?_, ?_⟩
  · positivity
  · linarith
  · ring

/-- **C162**: a convex object that contains the corners of a cell contains its points, so the second branch of the code
is right for it. -/
theorem convex_full (i j k : K) (b : Body K) (hb : Convexish b)
    (hc : ∀ p ∈ corners i j k, b.inside p.1 p.2.1 p.2.2 = true) : ∀ p ∈ points i j k, b.inside p.1 p.2.1 p.2.2 = true := by
  intro p hp
  unfold points at hp
  obtain ⟨x, hx, hp⟩ := List.mem_flatMap.1 hp
  obtain ⟨y, hy, hp⟩ := List.mem_flatMap.1 hp
  obtain ⟨z, hz, rfl⟩ := List.mem_map.1 hp
  obtain ⟨t, t0, t1, rfl⟩ := steps_mem i hx
  obtain ⟨u, u0, u1, rfl⟩ := steps_mem j hy
  obtain ⟨v, v0, v1, rfl⟩ := steps_mem k hz
  have hz' : ∀ x y : K, b.inside x y (k - 1 / 2) = true → b.inside x y (k + 1 / 2) = true →
      b.inside x y (k - 1 / 2 + v * (k + 1 / 2 - (k - 1 / 2))) = true := fun x y h1 h2 => by
    have := hb (x, y, k - 1 / 2) (x, y, k + 1 / 2) h1 h2 v v0 v1
    simpa using this
  have hy' : ∀ x z : K, b.inside x (j - 1 / 2) z = true → b.inside x (j + 1 / 2) z = true →
      b.inside x (j - 1 / 2 + u * (j + 1 / 2 - (j - 1 / 2))) z = true := fun x z h1 h2 => by
    have := hb (x, j - 1 / 2, z) (x, j + 1 / 2, z) h1 h2 u u0 u1
    simpa using this
  have hx' : ∀ y z : K, b.inside (i - 1 / 2) y z = true → b.inside (i + 1 / 2) y z = true →
      b.inside (i - 1 / 2 + t * (i + 1 / 2 - (i - 1 / 2))) y z = true := fun y z h1 h2 => by
    have := hb (i - 1 / 2, y, z) (i + 1 / 2, y, z) h1 h2 t t0 t1
    simpa using this
  simp only [corners, List.forall_mem_cons, List.not_mem_nil, false_imp_iff, implies_true, and_true] at hc
  obtain ⟨c1, c2, c3, c4, c5, c6, c7, c8⟩ := hc
  exact hx' _ _ (hy' _ _ (hz' _ _ c1 c2) (hz' _ _ c3 c4)) (hy' _ _ (hz' _ _ c5 c6) (hz' _ _ c7 c8))

/-- The values of `t * (1 - t)` are not negative: a square of a point on a line is below the mean of the squares. -/
theorem square_mean (a b t : K) (t0 : 0 ≤ t) (t1 : t ≤ 1) :
    (a + t * (b - a)) * (a + t * (b - a)) ≤ (1 - t) * (a * a) + t * (b * b) := by
  have : 0 ≤ t * (1 - t) * ((a - b) * (a - b)) :=
    mul_nonneg (mul_nonneg t0 (by linarith)) (mul_self_nonneg _)
  linarith [show (1 - t) * (a * a) + t * (b * b) - (a + t * (b - a)) * (a + t * (b - a)) =
    t * (1 - t) * ((a - b) * (a - b)) by ring]

theorem mix_le (a b c t : K) (t0 : 0 ≤ t) (t1 : t ≤ 1) (ha : a ≤ c) (hb : b ≤ c) : (1 - t) * a + t * b ≤ c := by
  have h1 := mul_le_mul_of_nonneg_left ha (by linarith : (0 : K) ≤ 1 - t)
  have h2 := mul_le_mul_of_nonneg_left hb t0
  linarith

theorem le_mix (a b c t : K) (t0 : 0 ≤ t) (t1 : t ≤ 1) (ha : c ≤ a) (hb : c ≤ b) : c ≤ (1 - t) * a + t * b := by
  have h1 := mul_le_mul_of_nonneg_left ha (by linarith : (0 : K) ≤ 1 - t)
  have h2 := mul_le_mul_of_nonneg_left hb t0
  linarith

theorem mix_between (a b c d t : K) (t0 : 0 ≤ t) (t1 : t ≤ 1) (ha : c ≤ a ∧ a ≤ d) (hb : c ≤ b ∧ b ≤ d) :
    c ≤ a + t * (b - a) ∧ a + t * (b - a) ≤ d := by
  have h1 := le_mix a b c t t0 t1 ha.1 hb.1
  have h2 := mix_le a b d t t0 t1 ha.2 hb.2
  constructor <;> linarith

theorem disc_mix (a b a' b' r t : K) (t0 : 0 ≤ t) (t1 : t ≤ 1) (h : a * a + b * b ≤ r) (h' : a' * a' + b' * b' ≤ r) :
    (a + t * (a' - a)) * (a + t * (a' - a)) + (b + t * (b' - b)) * (b + t * (b' - b)) ≤ r := by
  have := mix_le _ _ r t t0 t1 h h'
  have h1 := square_mean a a' t t0 t1
  have h2 := square_mean b b' t t0 t1
  linarith

theorem ball_mix (a b c a' b' c' r t : K) (t0 : 0 ≤ t) (t1 : t ≤ 1) (h : a * a + b * b + c * c ≤ r)
    (h' : a' * a' + b' * b' + c' * c' ≤ r) :
    (a + t * (a' - a)) * (a + t * (a' - a)) + (b + t * (b' - b)) * (b + t * (b' - b)) +
      (c + t * (c' - c)) * (c + t * (c' - c)) ≤ r := by
  have := mix_le _ _ r t t0 t1 h h'
  have h1 := square_mean a a' t t0 t1
  have h2 := square_mean b b' t t0 t1
  have h3 := square_mean c c' t t0 t1
  linarith

theorem rotX_mix (o : Obj K) (p q : K × K × K) (t : K) :
    rotX o (p.1 + t * (q.1 - p.1)) (p.2.1 + t * (q.2.1 - p.2.1)) (p.2.2 + t * (q.2.2 - p.2.2)) =
      rotX o p.1 p.2.1 p.2.2 + t * (rotX o q.1 q.2.1 q.2.2 - rotX o p.1 p.2.1 p.2.2) := by
  unfold rotX
  ring

theorem rotY_mix (o : Obj K) (p q : K × K × K) (t : K) :
    rotY o (p.1 + t * (q.1 - p.1)) (p.2.1 + t * (q.2.1 - p.2.1)) (p.2.2 + t * (q.2.2 - p.2.2)) =
      rotY o p.1 p.2.1 p.2.2 + t * (rotY o q.1 q.2.1 q.2.2 - rotY o p.1 p.2.1 p.2.2) := by
  unfold rotY
  ring

theorem rotZ_mix (o : Obj K) (p q : K × K × K) (t : K) :
    rotZ o (p.1 + t * (q.1 - p.1)) (p.2.1 + t * (q.2.1 - p.2.1)) (p.2.2 + t * (q.2.2 - p.2.2)) =
      rotZ o p.1 p.2.1 p.2.2 + t * (rotZ o q.1 q.2.1 q.2.2 - rotZ o p.1 p.2.1 p.2.2) := by
  unfold rotZ
  ring

/-- **C162**: rods, spheres, ellipses, ellipsoids and blocks, rotated or not, are convex, on any grid. -/
theorem shapes_convex (e : Env K) (o : Obj K)
    (h : o.shape ∈ [Shape.rod, .rodX, .rodY, .sphere, .ellipse, .ellipsoidal, .block, .Rrod, .Rellipse, .Rellipsoidal,
      .Rblock]) : Convexish (o.body e) := by
  intro p q hp hq t t0 t1
  have sub : ∀ a b c : K, a + t * (b - a) - c = (a - c) + t * ((b - c) - (a - c)) := fun a b c => by ring
  have quot : ∀ a s : K, a * a / (s * s) = (a / s) * (a / s) := fun a s => by rw [div_mul_div_comm]
  have dv : ∀ a b s : K, (a + t * (b - a)) / s = a / s + t * (b / s - a / s) := fun a b s => by ring
  unfold Obj.body inObject at hp hq ⊢
  simp only [List.mem_cons, List.not_mem_nil, or_false] at h
  rcases h with h | h | h | h | h | h | h | h | h | h | h <;>
    simp only [h, beq_iff_eq, Option.some.injEq, decide_eq_true_eq] at hp hq ⊢
  · refine ⟨?_, mix_between _ _ _ _ t t0 t1 hp.2 hq.2⟩
    simp only [sub]
    exact disc_mix _ _ _ _ _ t t0 t1 hp.1 hq.1
  · refine ⟨?_, mix_between _ _ _ _ t t0 t1 hp.2 hq.2⟩
    simp only [sub]
    exact disc_mix _ _ _ _ _ t t0 t1 hp.1 hq.1
  · refine ⟨?_, mix_between _ _ _ _ t t0 t1 hp.2 hq.2⟩
    simp only [sub]
    exact disc_mix _ _ _ _ _ t t0 t1 hp.1 hq.1
  · simp only [sub]
    exact ball_mix _ _ _ _ _ _ _ t t0 t1 hp hq
  · refine ⟨?_, mix_between _ _ _ _ t t0 t1 hp.2 hq.2⟩
    simp only [quot] at hp hq ⊢
    simp only [sub, dv]
    exact disc_mix _ _ _ _ _ t t0 t1 hp.1 hq.1
  · simp only [quot] at hp hq ⊢
    simp only [sub, dv]
    exact ball_mix _ _ _ _ _ _ _ t t0 t1 hp hq
  · obtain ⟨a1, a2⟩ := mix_between _ _ _ _ t t0 t1 ⟨hp.1, hp.2.1⟩ ⟨hq.1, hq.2.1⟩
    obtain ⟨b1, b2⟩ := mix_between _ _ _ _ t t0 t1 ⟨hp.2.2.1, hp.2.2.2.1⟩ ⟨hq.2.2.1, hq.2.2.2.1⟩
    exact ⟨a1, a2, b1, b2, mix_between _ _ _ _ t t0 t1 hp.2.2.2.2 hq.2.2.2.2⟩
  · rw [rotX_mix, rotY_mix, rotZ_mix]
    refine ⟨?_, mix_between _ _ _ _ t t0 t1 hp.2 hq.2⟩
    simp only [sub]
    exact disc_mix _ _ _ _ _ t t0 t1 hp.1 hq.1
  · rw [rotX_mix, rotY_mix, rotZ_mix]
    refine ⟨?_, mix_between _ _ _ _ t t0 t1 hp.2 hq.2⟩
    simp only [quot] at hp hq ⊢
    simp only [sub, dv]
    exact disc_mix _ _ _ _ _ t t0 t1 hp.1 hq.1
  · rw [rotX_mix, rotY_mix, rotZ_mix]
    simp only [quot] at hp hq ⊢
    simp only [sub, dv]
    exact ball_mix _ _ _ _ _ _ _ t t0 t1 hp hq
  · rw [rotX_mix, rotY_mix, rotZ_mix]
    obtain ⟨a1, a2⟩ := mix_between _ _ _ _ t t0 t1 ⟨hp.1, hp.2.1⟩ ⟨hq.1, hq.2.1⟩
    obtain ⟨b1, b2⟩ := mix_between _ _ _ _ t t0 t1 ⟨hp.2.2.1, hp.2.2.2.1⟩ ⟨hq.2.2.1, hq.2.2.2.1⟩
    exact ⟨a1, a2, b1, b2, mix_between _ _ _ _ t t0 t1 hp.2.2.2.2 hq.2.2.2.2⟩

/-! ### Where the corners mislead -/

theorem points_near (i j k : K) {p : K × K × K} (h : p ∈ points i j k) :
    ((p.1 - i) * (p.1 - i) + (p.2.1 - j) * (p.2.1 - j) + (p.2.2 - k) * (p.2.2 - k) : K) ≤ 243 / 400 := by
  obtain ⟨x, hx, h⟩ := List.mem_flatMap.1 h
  obtain ⟨y, hy, h⟩ := List.mem_flatMap.1 h
  obtain ⟨z, hz, rfl⟩ := List.mem_map.1 h
  have key : ∀ i x : K, x ∈ steps i → (x - i) * (x - i) ≤ 81 / 400 := fun i x hx => by
    obtain ⟨a, ha, rfl⟩ := List.mem_map.1 hx
    have h9 : (a : K) ≤ 9 := by
      have := List.mem_range.1 ha
      exact_mod_cast (show a ≤ 9 by omega)
    have h0 : (0 : K) ≤ a := Nat.cast_nonneg a
    have : 0 ≤ (a : K) * (9 - a) := mul_nonneg h0 (by linarith)
    linarith [show (81 / 400 : K) - (i - 9 / 20 + a / 10 - i) * (i - 9 / 20 + a / 10 - i) = a * (9 - a) / 100 by ring]
  have h1 := key _ _ hx
  have h2 := key _ _ hy
  have h3 := key _ _ hz
  dsimp only
  linarith

theorem corners_far (i j k : K) {p : K × K × K} (h : p ∈ corners i j k) :
    ((p.1 - i) * (p.1 - i) + (p.2.1 - j) * (p.2.1 - j) + (p.2.2 - k) * (p.2.2 - k) : K) = 3 / 4 := by
  simp only [corners, List.mem_cons, List.not_mem_nil, or_false] at h
  rcases h with h | h | h | h | h | h | h | h <;> rw [h] <;> ring

theorem step_out (i j k : K) (s : Mean K) (b : Body K) (h : ∀ p ∈ corners i j k, b.inside p.1 p.2.1 p.2.2 = false) :
    meanStep i j k s b = s := by
  unfold meanStep
  exact if_pos (List.all_eq_true.2 fun p hp => by rw [h p hp]; rfl)

theorem step_full (i j k : K) (s : Mean K) (b : Body K) (h : ∀ p ∈ corners i j k, b.inside p.1 p.2.1 p.2.2 = true) :
    meanStep i j k s b = ⟨b.epsilon, s.cells.map fun c => (c.1, b.epsilon), false⟩ := by
  unfold meanStep
  have h0 : ¬((corners i j k).all fun p => !b.inside p.1 p.2.1 p.2.2) = true := fun hn => by
    have h1 := List.all_eq_true.1 hn (i - 1 / 2, j - 1 / 2, k - 1 / 2) (by simp [corners])
    rw [h _ (by simp [corners])] at h1
    exact absurd h1 (by simp)
  exact (if_neg h0).trans (if_pos (List.all_eq_true.2 h))

/-- **C162** (negation): every sphere at the centre of a cell with radius squared from `243/400` to below `3/4` contains all points of
the cell, but is ignored. -/
theorem small_fails (e : Env K) (o : Obj K) (back : K) (ho : o.shape = .sphere) (h1 : 243 / 400 ≤ o.size1 * o.size1)
    (h2 : o.size1 * o.size1 < 3 / 4) :
    (∀ p ∈ points o.centeri o.centerj o.centerk, (o.body e).inside p.1 p.2.1 p.2.2 = true) ∧
      averageEpsilon back [o.body e] o.centeri o.centerj o.centerk = back := by
  have hin : ∀ x y z : K, (o.body e).inside x y z = decide ((x - o.centeri) * (x - o.centeri) +
      (y - o.centerj) * (y - o.centerj) + (z - o.centerk) * (z - o.centerk) ≤ o.size1 * o.size1) := fun x y z => by
    unfold Obj.body inObject
    rw [ho]
    simp
  constructor
  · intro p hp
    rw [hin, decide_eq_true_eq]
    exact (points_near _ _ _ hp).trans h1
  · unfold averageEpsilon
    rw [List.foldl_cons, List.foldl_nil]
    rw [step_out _ _ _ _ _ fun p hp => by
      rw [hin, decide_eq_false_iff_not, corners_far _ _ _ hp, not_le]
      exact h2]
    simp

/-- **C162** (negation): the hole of a shell that contains all points of a cell, but not its corners, is filled. -/
theorem hole_fails (e : Env K) (o : Obj K) (back : K) (ho : o.shape = .shell) (h1 : 243 / 400 < o.size1 * o.size1)
    (h2 : o.size1 * o.size1 ≤ 3 / 4) (h3 : 3 / 4 ≤ o.size2 * o.size2) :
    (∀ p ∈ points o.centeri o.centerj o.centerk, (o.body e).inside p.1 p.2.1 p.2.2 = false) ∧
      averageEpsilon back [o.body e] o.centeri o.centerj o.centerk = o.epsilon := by
  have hin : ∀ x y z : K, (o.body e).inside x y z = decide (o.size1 * o.size1 ≤ (x - o.centeri) * (x - o.centeri) +
      (y - o.centerj) * (y - o.centerj) + (z - o.centerk) * (z - o.centerk) ∧ (x - o.centeri) * (x - o.centeri) +
      (y - o.centerj) * (y - o.centerj) + (z - o.centerk) * (z - o.centerk) ≤ o.size2 * o.size2) := fun x y z => by
    unfold Obj.body inObject
    rw [ho]
    simp
  constructor
  · intro p hp
    rw [hin, decide_eq_false_iff_not]
    intro hc
    have := points_near _ _ _ hp
    linarith [hc.1]
  · have hc : ∀ p ∈ corners o.centeri o.centerj o.centerk, (o.body e).inside p.1 p.2.1 p.2.2 = true := fun p hp => by
      rw [hin, decide_eq_true_eq, corners_far _ _ _ hp]
      exact ⟨h2, h3⟩
    unfold averageEpsilon
    rw [List.foldl_cons, List.foldl_nil]
    rw [step_full _ _ _ _ _ hc]
    simp [Obj.body]

/-- **C162** (negation): a block whose two ends have the same index is lost in all cells. -/
theorem thin_fails (e : Env K) (o : Obj K) (back : K) (ho : o.shape = .block)
    (h : e.zToI (o.centerk - 1 / 2 * o.size3) = e.zToI (o.centerk + 1 / 2 * o.size3)) (i j k : ℤ) :
    makeEpsilon back [o.body e] i j k = (back, back, back) := by
  obtain ⟨m, hm⟩ : ∃ m, m = e.zToI (o.centerk + 1 / 2 * o.size3) := ⟨_, rfl⟩
  have hin : ∀ x y z : K, z ≠ m → (o.body e).inside x y z = false := fun x y z hz => by
    unfold Obj.body inObject
    simp only [ho, h, ← hm, beq_eq_false_iff_ne, ne_eq, Option.some.injEq, decide_eq_true_eq]
    exact fun hc => hz (le_antisymm hc.2.2.2.2.2 hc.2.2.2.2.1)
  have cast : ∀ (n : ℤ) (a : ℤ), 20 * n ≠ a → (n : K) ≠ (a : K) / 20 := fun n a hna hc => by
    have : ((20 * n : ℤ) : K) = a := by
      push_cast
      rw [hc]
      ring
    exact hna (by exact_mod_cast this)
  have hpt : ∀ (x y z : K) (c : ℤ), z = (c : K) / 2 → ∀ p ∈ points x y z, (o.body e).inside p.1 p.2.1 p.2.2 = false := by
    intro x y z c hz p hp
    obtain ⟨x', -, hp⟩ := List.mem_flatMap.1 hp
    obtain ⟨y', -, hp⟩ := List.mem_flatMap.1 hp
    obtain ⟨z', hz', rfl⟩ := List.mem_map.1 hp
    obtain ⟨a, -, rfl⟩ := List.mem_map.1 hz'
    refine hin _ _ _ fun hc => cast m (10 * c - 9 + 2 * a) (by omega) ?_
    rw [← hc, hz]
    push_cast
    ring
  have hav : ∀ (x y z : K) (c : ℤ), z = (c : K) / 2 → averageEpsilon back [o.body e] x y z = back := by
    intro x y z c hz
    have hr : ∀ b ∈ [o.body e], Resolved x y z b := fun b hb => by
      rw [List.mem_singleton.1 hb]
      refine ⟨fun _ => hpt x y z c hz, fun hc => ?_⟩
      have h1 := hc (x - 1 / 2, y - 1 / 2, z - 1 / 2) (by simp [corners])
      have h2 := hc (x - 1 / 2, y - 1 / 2, z + 1 / 2) (by simp [corners])
      have g1 : z - 1 / 2 = m := by
        by_contra hne
        rw [hin _ _ _ hne] at h1
        exact absurd h1 (by simp)
      have g2 : z + 1 / 2 = m := by
        by_contra hne
        rw [hin _ _ _ hne] at h2
        exact absurd h2 (by simp)
      linarith
    rw [average_partial back x y z _ hr]
    have hm : (points x y z).map (material back [o.body e]) = (points x y z).map fun _ => back :=
      List.map_congr_left fun p hp => by
        rw [show [o.body e] = [] ++ [o.body e] from rfl, material_append, hpt x y z c hz p hp]
        rfl
    rw [hm, List.map_const', List.sum_replicate, points_length, nsmul_eq_mul]
    norm_num
  unfold makeEpsilon
  rw [hav _ _ _ (2 * k) (by push_cast; ring), hav _ _ _ (2 * k) (by push_cast; ring),
    hav _ _ _ (2 * k + 1) (by push_cast; ring)]

/-! ### Rotations -/

/-- **C162**: the Euler rotation keeps all distances. -/
theorem rotation_isometry (o : Obj K) (ha : o.ca * o.ca + o.sa * o.sa = 1) (hb : o.cb * o.cb + o.sb * o.sb = 1)
    (hc : o.cc * o.cc + o.sc * o.sc = 1) (p q : K × K × K) :
    (rotX o p.1 p.2.1 p.2.2 - rotX o q.1 q.2.1 q.2.2) ^ 2 + (rotY o p.1 p.2.1 p.2.2 - rotY o q.1 q.2.1 q.2.2) ^ 2 +
      (rotZ o p.1 p.2.1 p.2.2 - rotZ o q.1 q.2.1 q.2.2) ^ 2 =
    (p.1 - q.1) ^ 2 + (p.2.1 - q.2.1) ^ 2 + (p.2.2 - q.2.2) ^ 2 := by
  obtain ⟨p1, p2, p3⟩ := p
  obtain ⟨q1, q2, q3⟩ := q
  unfold rotX rotY rotZ
  dsimp only
  obtain ⟨x, hx⟩ : ∃ x, x = p1 - q1 := ⟨_, rfl⟩
  obtain ⟨y, hy⟩ : ∃ y, y = p2 - q2 := ⟨_, rfl⟩
  obtain ⟨z, hz⟩ : ∃ z, z = p3 - q3 := ⟨_, rfl⟩
  obtain rfl : p1 = x + q1 := by rw [hx]; ring
  obtain rfl : p2 = y + q2 := by rw [hy]; ring
  obtain rfl : p3 = z + q3 := by rw [hz]; ring
  linear_combination ((o.ca * x + o.sa * y) ^ 2 + (o.cb * (-o.sa * x + o.ca * y) + o.sb * z) ^ 2) * hc +
    ((-o.sa * x + o.ca * y) ^ 2 + z ^ 2) * hb + (x ^ 2 + y ^ 2) * ha

/-- **C162**: the centre of an object is not moved; a point along the axis `(sin a sin b, -cos a sin b, cos b)` is moved to
the `z` axis. -/
theorem rotation_axis (o : Obj K) (ha : o.ca * o.ca + o.sa * o.sa = 1) (hb : o.cb * o.cb + o.sb * o.sb = 1) (t : K) :
    let i := o.centeri + t * (o.sa * o.sb)
    let j := o.centerj - t * (o.ca * o.sb)
    let k := o.centerk + t * o.cb
    rotX o i j k = o.centeri ∧ rotY o i j k = o.centerj ∧ rotZ o i j k = o.centerk + t := by
  unfold rotX rotY rotZ
  dsimp only
  refine ⟨?_, ?_, ?_⟩
  · linear_combination (-t * o.cb * o.sb * o.sc) * ha
  · linear_combination (-t * o.cb * o.sb * o.cc) * ha
  · linear_combination t * hb + t * o.sb * o.sb * ha

/-- **C162**: a rotated ellipsoid with three equal radii is the sphere. -/
theorem ellipsoid_sphere (e : Env K) (o : Obj K) (r : K) (hr : r ≠ 0) (h1 : o.size1 = r) (h2 : o.size2 = r) (h3 : o.size3 = r)
    (ha : o.ca * o.ca + o.sa * o.sa = 1) (hb : o.cb * o.cb + o.sb * o.sb = 1) (hc : o.cc * o.cc + o.sc * o.sc = 1) (i j k : K) :
    inObject e { o with shape := .Rellipsoidal } i j k = inObject e { o with shape := .sphere } i j k := by
  have hrr : 0 < r * r := mul_self_pos.2 hr
  have h := rotation_isometry o ha hb hc (i, j, k) (o.centeri, o.centerj, o.centerk)
  have e1 : rotX o o.centeri o.centerj o.centerk = o.centeri := by unfold rotX; ring
  have e2 : rotY o o.centeri o.centerj o.centerk = o.centerj := by unfold rotY; ring
  have e3 : rotZ o o.centeri o.centerj o.centerk = o.centerk := by unfold rotZ; ring
  dsimp only at h
  rw [e1, e2, e3] at h
  unfold inObject
  dsimp only
  congr 1
  rw [decide_eq_decide, h1, h2, h3, ← add_div, ← add_div, div_le_one hrr]
  have f1 : rotX { o with shape := .Rellipsoidal } i j k = rotX o i j k := rfl
  have f2 : rotY { o with shape := .Rellipsoidal } i j k = rotY o i j k := rfl
  have f3 : rotZ { o with shape := .Rellipsoidal } i j k = rotZ o i j k := rfl
  simp only [h1, h2, h3] at f1 f2 f3 ⊢
  constructor
  · intro g
    have : (rotX o i j k - o.centeri) ^ 2 + (rotY o i j k - o.centerj) ^ 2 + (rotZ o i j k - o.centerk) ^ 2 ≤ r * r := by
      rw [sq, sq, sq]
      exact g
    rw [h] at this
    linarith
  · intro g
    have : (i - o.centeri) ^ 2 + (j - o.centerj) ^ 2 + (k - o.centerk) ^ 2 ≤ r * r := by linarith
    rw [← h, sq, sq, sq] at this
    exact this

/-! ### Units -/

/-- **C162** (part): on a grid of cubes a sphere holds the points whose distance from its centre is at most the radius. -/
theorem sphere_partial (e : Env K) (hx : 0 < e.lattice_x) (hy : e.lattice_y = e.lattice_x) (hz : e.lattice_z = e.lattice_x)
    (x y z r eps u v w : K) :
    inObject e (inputSphere e x y z r eps) ((u + e.xcenter) * e.lattice_x) ((v + e.ycenter) * e.lattice_y)
      ((w + e.zcenter) * e.lattice_z) = some (decide ((u - x) ^ 2 + (v - y) ^ 2 + (w - z) ^ 2 ≤ r ^ 2)) := by
  have hl : (0 : K) < (e.lattice_x : K) * e.lattice_x := by
    have : (0 : K) < e.lattice_x := by exact_mod_cast hx
    positivity
  unfold inObject inputSphere plain
  dsimp only
  congr 1
  rw [decide_eq_decide, hy, hz, ← mul_le_mul_iff_left₀ (b := (u - x) ^ 2 + (v - y) ^ 2 + (w - z) ^ 2) hl]
  constructor <;> intro g <;> linarith

/-- **C162** (negation): on a grid with a finer resolution along `z` a point at the pole is outside of every sphere. -/
theorem sphere_fails (e : Env K) (hx : 0 < e.lattice_x) (hz : e.lattice_x < e.lattice_z) (x y z r eps : K) (hr : 0 < r) :
    inObject e (inputSphere e x y z r eps) ((x + e.xcenter) * e.lattice_x) ((y + e.ycenter) * e.lattice_y)
      ((z + r + e.zcenter) * e.lattice_z) = some false := by
  have h0 : (0 : K) < e.lattice_x := by exact_mod_cast hx
  have h1 : (e.lattice_x : K) < e.lattice_z := by exact_mod_cast hz
  unfold inObject inputSphere plain
  dsimp only
  congr 1
  rw [decide_eq_false_iff_not, not_le]
  have h2 : r * e.lattice_x < r * e.lattice_z := mul_lt_mul_of_pos_left h1 hr
  have h3 := mul_self_lt_mul_self (by positivity : (0 : K) ≤ r * e.lattice_x) h2
  linarith

/-- **C162**: an ellipsoid is right for all resolutions. -/
theorem ellipsoid_units (e : Env K) (hx : 0 < e.lattice_x) (hy : 0 < e.lattice_y) (hz : 0 < e.lattice_z)
    (x y z rx ry rz eps u v w : K) :
    inObject e (inputEllipsoidal e x y z rx ry rz eps) ((u + e.xcenter) * e.lattice_x) ((v + e.ycenter) * e.lattice_y)
      ((w + e.zcenter) * e.lattice_z) =
      some (decide (((u - x) / rx) ^ 2 + ((v - y) / ry) ^ 2 + ((w - z) / rz) ^ 2 ≤ 1)) := by
  have key : ∀ (l : ℤ) (a b c r : K), 0 < l →
      ((a + c) * l - (b + c) * l) * ((a + c) * l - (b + c) * l) / (r * l * (r * l)) = ((a - b) / r) ^ 2 := by
    intro l a b c r hl
    have h0 : (l : K) ≠ 0 := by exact_mod_cast hl.ne'
    rw [show ((a + c) * l - (b + c) * l) * ((a + c) * l - (b + c) * l) = (a - b) ^ 2 * ((l : K) * l) by ring,
      show r * l * (r * l) = r ^ 2 * ((l : K) * l) by ring, mul_div_mul_right _ _ (mul_ne_zero h0 h0), div_pow]
  unfold inObject inputEllipsoidal plain
  dsimp only
  rw [key _ _ _ _ _ hx, key _ _ _ _ _ hy, key _ _ _ _ _ hz]

/-! ### Cones and contours -/

/-- The radius of a cone at the height `z`, from `size2` at the lower to `size1` at the upper end. -/
def radiusAt (o : Obj K) (z : K) : K :=
  o.size2 + (o.size1 - o.size2) * ((z - (o.centerk - o.size3 / 2)) / o.size3)

theorem cone_radius (o : Obj K) (h3 : o.size3 ≠ 0) (z : K) :
    (o.size1 - o.size2) * (z - o.centerk) / o.size3 + 1 / 2 * (o.size1 + o.size2) = radiusAt o z := by
  unfold radiusAt
  field_simp
  ring

/-- **C162** (part): at integer heights a cone is right if the radius is an integer. -/
theorem cone_partial (e : Env K) (o : Obj K) (ho : o.shape = .cone) (h3 : o.size3 ≠ 0) (k n : ℤ)
    (hn : radiusAt o (e.iToZ k) = n) (i j : K) :
    inObject e o i j k = some (decide ((i - o.centeri) ^ 2 + (j - o.centerj) ^ 2 ≤ radiusAt o (e.iToZ k) ^ 2 ∧
      e.zToI (o.centerk - 1 / 2 * o.size3) ≤ k ∧ k ≤ e.zToI (o.centerk + 1 / 2 * o.size3))) := by
  have ht : toInt (k : K) = k := by unfold toInt; split_ifs <;> simp
  have hc : coneRadius e o k = n := by
    unfold coneRadius
    rw [ht, cone_radius o h3, hn]
    unfold toInt
    split_ifs <;> simp
  unfold inObject
  rw [ho]
  dsimp only
  rw [hc, hn]
  congr 1
  rw [decide_eq_decide]
  push_cast
  rw [sq, sq, sq, Int.cast_le, Int.cast_le]

/-- **C162** (negation): at each integer height inside of a cone where the radius is positive and no integer, a
point at this distance from the axis is outside. -/
theorem cone_fails (e : Env K) (o : Obj K) (ho : o.shape = .cone) (h3 : o.size3 ≠ 0) (k : ℤ)
    (h0 : 0 < radiusAt o (e.iToZ k)) (hn : ∀ n : ℤ, radiusAt o (e.iToZ k) ≠ n) :
    inObject e o (o.centeri + radiusAt o (e.iToZ k)) o.centerj k = some false := by
  have ht : toInt (k : K) = k := by unfold toInt; split_ifs <;> simp
  have hc : coneRadius e o k = ⌊radiusAt o (e.iToZ k)⌋ := by
    unfold coneRadius
    rw [ht, cone_radius o h3]
    unfold toInt
    rw [if_pos h0.le]
  have hlt : ((⌊radiusAt o (e.iToZ k)⌋ : ℤ) : K) < radiusAt o (e.iToZ k) :=
    lt_of_le_of_ne (Int.floor_le _) fun h => hn _ h.symm
  have hnn : (0 : K) ≤ ((⌊radiusAt o (e.iToZ k)⌋ : ℤ) : K) := by
    exact_mod_cast Int.floor_nonneg.2 h0.le
  have hsq := mul_self_lt_mul_self hnn hlt
  unfold inObject
  rw [ho]
  dsimp only
  rw [hc]
  congr 1
  rw [decide_eq_false_iff_not]
  intro hcon
  have := hcon.1
  push_cast at this
  rw [add_sub_cancel_left, sub_self, mul_zero, add_zero] at this
  linarith

/-- **C162** (part): a contour contains exactly the points below the upper edges of the matrix, between its heights, where
the entry of the matrix is at most the level. -/
theorem contour_partial (e : Env K) (o : Obj K) (ho : o.shape = .contour) (i j k : K) :
    let a := o.centeri + (i - e.xcenter * e.lattice_x) / o.size3
    let b := o.centerj + (j - e.ycenter * e.lattice_y) / o.size3
    inObject e o i j k = some true ↔ (0 ≤ a ∧ a < o.col) ∧ (0 ≤ b ∧ b < o.row) ∧
      ((e.zToI (o.centerk - 1 / 2 * o.size2) : K) ≤ k ∧ k ≤ (e.zToI (o.centerk + 1 / 2 * o.size2) : K)) ∧
      o.matrix ⌊a⌋ ⌊b⌋ ≤ o.size1 := by
  unfold inObject
  rw [ho]
  dsimp only
  constructor
  · intro h
    split_ifs at h with h1 h2 h3
    · exact ⟨⟨Int.floor_nonneg.1 h2.1, Int.floor_lt.1 h2.2.1⟩, ⟨Int.floor_nonneg.1 h2.2.2.1, Int.floor_lt.1 h2.2.2.2⟩,
        h1.2.2.2.2, h3⟩
    · simp at h
  · rintro ⟨⟨a0, a1⟩, ⟨b0, b1⟩, hk, hm⟩
    rw [if_pos ⟨by linarith, by linarith, by linarith, by linarith, hk⟩,
      if_pos ⟨Int.floor_nonneg.2 a0, Int.floor_lt.2 a1, Int.floor_nonneg.2 b0, Int.floor_lt.2 b1⟩, if_pos hm]

/-- **C162** (negation): within the area of the matrix a contour has no value where the matrix is above the level, and none at the
upper edges. -/
theorem contour_fails (e : Env K) (o : Obj K) (ho : o.shape = .contour) (i j k : K)
    (hk : (e.zToI (o.centerk - 1 / 2 * o.size2) : K) ≤ k ∧ k ≤ (e.zToI (o.centerk + 1 / 2 * o.size2) : K))
    (hi : 0 ≤ o.centeri + (i - e.xcenter * e.lattice_x) / o.size3 ∧
      o.centeri + (i - e.xcenter * e.lattice_x) / o.size3 ≤ o.col)
    (hj : 0 ≤ o.centerj + (j - e.ycenter * e.lattice_y) / o.size3 ∧
      o.centerj + (j - e.ycenter * e.lattice_y) / o.size3 ≤ o.row)
    (h : o.size1 < o.matrix ⌊o.centeri + (i - e.xcenter * e.lattice_x) / o.size3⌋
        ⌊o.centerj + (j - e.ycenter * e.lattice_y) / o.size3⌋ ∨
      o.centeri + (i - e.xcenter * e.lattice_x) / o.size3 = o.col ∨
      o.centerj + (j - e.ycenter * e.lattice_y) / o.size3 = o.row) : inObject e o i j k = none := by
  unfold inObject
  rw [ho]
  dsimp only
  rw [if_pos ⟨by linarith [hi.1], by linarith [hi.2], by linarith [hj.1], by linarith [hj.2], hk⟩]
  rcases h with h | h | h
  · rw [if_neg (not_le.2 h)]
    split_ifs <;> rfl
  · rw [if_neg]
    intro hc
    have := hc.2.1
    rw [h, Int.floor_intCast] at this
    exact lt_irrefl _ this
  · rw [if_neg]
    intro hc
    have := hc.2.2.2
    rw [h, Int.floor_intCast] at this
    exact lt_irrefl _ this

/-! ### Random spheres -/

/-- The square of the distance. -/
def dist2 (p q : K × K × K) : K := (p.1 - q.1) ^ 2 + (p.2.1 - q.2.1) ^ 2 + (p.2.2 - q.2.2) ^ 2

/-- A point lies in the box. -/
def InBox (lo hi p : K × K × K) : Prop :=
  (lo.1 ≤ p.1 ∧ p.1 ≤ hi.1) ∧ (lo.2.1 ≤ p.2.1 ∧ p.2.1 ≤ hi.2.1) ∧ (lo.2.2 ≤ p.2.2 ∧ p.2.2 ≤ hi.2.2)

theorem generate_spec (lo hi : K × K × K) (h1 : lo.1 ≤ hi.1) (h2 : lo.2.1 ≤ hi.2.1) (h3 : lo.2.2 ≤ hi.2.2) (r : K)
    (old us : List (K × K × K)) (hus : ∀ u ∈ us, InBox (0, 0, 0) (1, 1, 1) u) {p : K × K × K} {vs : List (K × K × K)}
    (h : generate lo hi r old us = some (p, vs)) :
    InBox lo hi p ∧ (∀ q ∈ old, (2 * r) ^ 2 ≤ dist2 q p) ∧ ∀ u ∈ vs, InBox (0, 0, 0) (1, 1, 1) u := by
  induction us with
  | nil => simp [generate] at h
  | cons u us ih =>
    unfold generate at h
    dsimp only at h
    split_ifs at h with hc
    · rw [Option.some.injEq, Prod.mk.injEq] at h
      obtain ⟨rfl, rfl⟩ := h
      obtain ⟨⟨a0, a1⟩, ⟨b0, b1⟩, c0, c1⟩ := hus u List.mem_cons_self
      have key : ∀ t l h : K, 0 ≤ t → t ≤ 1 → l ≤ h → l ≤ t * (h - l) + l ∧ t * (h - l) + l ≤ h := by
        intro t l h t0 t1 hl
        have g1 := mul_nonneg t0 (sub_nonneg.2 hl)
        have g2 := mul_le_mul_of_nonneg_right t1 (sub_nonneg.2 hl)
        constructor <;> linarith
      refine ⟨⟨key _ _ _ a0 a1 h1, key _ _ _ b0 b1 h2, key _ _ _ c0 c1 h3⟩, fun q hq => ?_,
        fun v hv => hus v (List.mem_cons_of_mem _ hv)⟩
      have := List.all_eq_true.1 hc q hq
      rw [Bool.not_eq_true', decide_eq_false_iff_not, not_lt] at this
      unfold dist2
      dsimp only
      linarith
    · exact ih (fun v hv => hus v (List.mem_cons_of_mem _ hv)) h

/-- **C162**: for every stream of random numbers, if the code places `n` spheres then the centres are in the box and no two
spheres overlap. -/
theorem random_disjoint (lo hi : K × K × K) (h1 : lo.1 ≤ hi.1) (h2 : lo.2.1 ≤ hi.2.1) (h3 : lo.2.2 ≤ hi.2.2) (r : K) (n : ℕ)
    (us : List (K × K × K)) (hus : ∀ u ∈ us, InBox (0, 0, 0) (1, 1, 1) u) {ps vs : List (K × K × K)}
    (h : randomObject lo hi r n us = some (ps, vs)) :
    ps.length = n ∧ (∀ p ∈ ps, InBox lo hi p) ∧ ps.Pairwise (fun p q => (2 * r) ^ 2 ≤ dist2 p q) ∧
      ∀ u ∈ vs, InBox (0, 0, 0) (1, 1, 1) u := by
  induction n generalizing ps vs with
  | zero =>
    simp only [randomObject, Option.some.injEq, Prod.mk.injEq] at h
    obtain ⟨rfl, rfl⟩ := h
    exact ⟨rfl, fun p hp => absurd hp (by simp), List.Pairwise.nil, hus⟩
  | succ n ih =>
    rw [randomObject, Option.bind_eq_some_iff] at h
    obtain ⟨⟨qs, ws⟩, hq, h⟩ := h
    obtain ⟨g1, g2, g3, g4⟩ := ih hq
    rw [Option.map_eq_some_iff] at h
    obtain ⟨⟨p, us'⟩, hg, h⟩ := h
    rw [Prod.mk.injEq] at h
    obtain ⟨rfl, rfl⟩ := h
    obtain ⟨k1, k2, k3⟩ := generate_spec lo hi h1 h2 h3 r qs ws g4 hg
    refine ⟨by simp [g1], fun x hx => ?_, ?_, k3⟩
    · rcases List.mem_append.1 hx with hx | hx
      · exact g2 x hx
      · rw [List.mem_singleton.1 hx]
        exact k1
    · rw [List.pairwise_append]
      exact ⟨g3, List.pairwise_singleton _ _, fun a ha b hb => by rw [List.mem_singleton.1 hb]; exact k2 a ha⟩

/-! ### Examples -/

/-- A grid with ten cells per unit. -/
def env : Env ℚ := ⟨fun z => ⌊1 / 2 + z * 10⌋, fun i => i / 10, 0, 0, 0, 10, 10, 10⟩

/-- A block of height one. -/
example : Convexish ((plain .block 0 0 (1 / 2) 10 10 (1 : ℚ) 2).body env) := shapes_convex env _ (by simp [plain])

/-- A body that is resolved by the corners of a cell: the half space. -/
example : ∀ b ∈ [(⟨fun x _ _ => decide (x ≤ 0), 2⟩ : Body ℚ)], Resolved (0 : ℚ) 0 0 b := by
  intro b hb
  rw [List.mem_singleton.1 hb]
  constructor
  · intro h
    have := h (0 - 1 / 2, 0 - 1 / 2, 0 - 1 / 2) (by simp [corners])
    norm_num at this
  · intro h
    have := h (0 + 1 / 2, 0 - 1 / 2, 0 - 1 / 2) (by simp [corners])
    norm_num at this

/-- A film of thickness `1/20` on the grid. -/
example : env.zToI (1 - 1 / 2 * (1 / 20)) = env.zToI (1 + 1 / 2 * (1 / 20)) := by
  norm_num [env]

/-- Sizes of small spheres and holes. -/
example : (243 / 400 : ℚ) < 4 / 5 * (4 / 5) ∧ (4 / 5 * (4 / 5) : ℚ) < 3 / 4 ∧ (3 / 4 : ℚ) ≤ 1 * 1 := by norm_num

/-- A cone with the radii `6` and `3` and no integer radius at the index `1`. -/
example : radiusAt (plain .cone 0 0 0 6 3 (1 : ℚ) 2) (env.iToZ 1) = 24 / 5 := by
  norm_num [radiusAt, plain, env]

/-- Two random spheres. -/
example : (randomObject ((0, 0, 0) : ℚ × ℚ × ℚ) (10, 10, 10) 1 2 [(1 / 2, 1 / 2, 1 / 2), (3 / 5, 1 / 2, 1 / 2),
    (9 / 10, 1 / 2, 1 / 2)]).map Prod.fst = some [(5, 5, 5), (9, 5, 5)] := by
  norm_num [randomObject, generate]

/-- Angles of a rotation. -/
example : (3 / 5 * (3 / 5) + 4 / 5 * (4 / 5) : ℚ) = 1 := by norm_num

end OpenMS.FdtdObjects
