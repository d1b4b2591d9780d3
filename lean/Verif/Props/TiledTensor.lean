import Verif.Model.TiledTensor

/-!
# C167: tiled tensors
-/

namespace OpenMS.TiledTensor

/-- The number of an index in row-major order among those below `m`. -/
def number (m : Index) : ℕ → Index → ℕ
  | 0, _ => 0
  | d + 1, x => number m d x * m d + x d

/-- The sizes that the loop sees: a count of zero acts as one. -/
def seen (counts : Index) : Index := fun d => max 1 (counts d)

/-- An index below the sizes, zero from the rank on. -/
def Valid (m : Index) (rank : ℕ) (x : Index) : Prop := (∀ d < rank, x d < m d) ∧ ∀ d, rank ≤ d → x d = 0

theorem number_congr (m : Index) (r : ℕ) (x y : Index) (h : ∀ d < r, x d = y d) : number m r x = number m r y := by
  induction r with
  | zero => rfl
  | succ r ih => rw [number, number, ih fun d hd => h d (by omega), h r (by omega)]

theorem number_lt (m : Index) (r : ℕ) (x : Index) (h : ∀ d < r, x d < m d) : number m r x < ∏ d ∈ Finset.range r, m d := by
  induction r with
  | zero => simp [number]
  | succ r ih =>
    rw [number, Finset.prod_range_succ]
    have h1 := ih fun d hd => h d (by omega)
    have h2 := h r (by omega)
    calc number m r x * m r + x r < number m r x * m r + m r := by omega
      _ = (number m r x + 1) * m r := by ring
      _ ≤ _ := Nat.mul_le_mul_right _ h1

theorem number_inj (m : Index) (r : ℕ) (x y : Index) (hx : ∀ d < r, x d < m d) (hy : ∀ d < r, y d < m d)
    (h : number m r x = number m r y) : ∀ d < r, x d = y d := by
  induction r with
  | zero => intro d hd; omega
  | succ r ih =>
    rw [number, number] at h
    have h1 := hx r (by omega)
    have h2 := hy r (by omega)
    have e1 : (number m r x * m r + x r) % m r = x r := by rw [Nat.mul_comm, Nat.mul_add_mod, Nat.mod_eq_of_lt h1]
    have e2 : (number m r y * m r + y r) % m r = y r := by rw [Nat.mul_comm, Nat.mul_add_mod, Nat.mod_eq_of_lt h2]
    have e3 : x r = y r := by rw [← e1, ← e2, h]
    have e4 : number m r x = number m r y := by
      have : number m r x * m r = number m r y * m r := by omega
      exact Nat.eq_of_mul_eq_mul_right (by omega) this
    intro d hd
    by_cases hdr : d = r
    · rw [hdr]; exact e3
    · exact ih (fun d hd => hx d (by omega)) (fun d hd => hy d (by omega)) e4 d (by omega)

/-- The loop over `d` adds one, or ends when the index is the last one. -/
theorem carry_spec (c : Index) (r : ℕ) (x : Index) (hx : ∀ d < r, x d < seen c d) :
    (number (seen c) r x + 1 < ∏ d ∈ Finset.range r, seen c d →
      ∃ y, carry c r x = some y ∧ (∀ d < r, y d < seen c d) ∧ (∀ d, r ≤ d → y d = x d) ∧
        number (seen c) r y = number (seen c) r x + 1) ∧
    (number (seen c) r x + 1 = ∏ d ∈ Finset.range r, seen c d → carry c r x = none) := by
  induction r generalizing x with
  | zero => simp [number, carry]
  | succ r ih =>
    have hr := hx r (by omega)
    obtain ⟨i1, i2⟩ := ih (Function.update (Function.update x r (x r + 1)) r 0) (fun d hd => by
      rw [Function.update_of_ne (by omega), Function.update_of_ne (by omega)]; exact hx d (by omega))
    have en : number (seen c) r (Function.update (Function.update x r (x r + 1)) r 0) = number (seen c) r x :=
      number_congr _ _ _ _ fun d hd => by rw [Function.update_of_ne (by omega), Function.update_of_ne (by omega)]
    have hlt := number_lt (seen c) r x fun d hd => hx d (by omega)
    rw [en] at i1 i2
    rw [Finset.prod_range_succ, number]
    generalize hN : ∏ d ∈ Finset.range r, seen c d = N at *
    have hm : 1 ≤ seen c r := le_max_left _ _
    unfold carry
    dsimp only
    rw [Function.update_self]
    by_cases hc : x r + 1 < c r
    · rw [if_pos hc]
      have hcs : c r ≤ seen c r := le_max_right _ _
      constructor
      · intro _
        refine ⟨_, rfl, ?_, ?_, ?_⟩
        · intro d hd
          by_cases hdr : d = r
          · rw [hdr, Function.update_self]; omega
          · rw [Function.update_of_ne hdr]; exact hx d hd
        · intro d hd
          rw [Function.update_of_ne (by omega)]
        · rw [number, Function.update_self,
            number_congr (seen c) r _ x fun d hd => by rw [Function.update_of_ne (by omega)]]
          omega
      · intro h
        exfalso
        have : (number (seen c) r x + 1) * seen c r ≤ N * seen c r := Nat.mul_le_mul_right _ hlt
        rw [add_mul, one_mul] at this
        omega
    · rw [if_neg hc]
      have hxr : x r + 1 = seen c r := by
        have hd : seen c r = 1 ∨ seen c r = c r := max_choice 1 (c r)
        clear i1 i2
        omega
      have e : number (seen c) r x * seen c r + x r + 1 = (number (seen c) r x + 1) * seen c r := by
        rw [add_mul, one_mul]; omega
      rw [e]
      constructor
      · intro h
        obtain ⟨y, y1, y2, y3, y4⟩ := i1 (Nat.lt_of_mul_lt_mul_right h)
        have yr : y r = 0 := by rw [y3 r le_rfl, Function.update_self]
        refine ⟨y, y1, ?_, ?_, ?_⟩
        · intro d hd
          by_cases hdr : d = r
          · rw [hdr, yr]; omega
          · exact y2 d (by omega)
        · intro d hd
          rw [y3 d (by omega), Function.update_of_ne (by omega), Function.update_of_ne (by omega)]
        · rw [number, y4, yr, add_zero]
      · intro h
        exact i2 (Nat.eq_of_mul_eq_mul_right (by omega) h)

/-- The endless loop from an index on. -/
theorem loop_spec (c : Index) (r fuel : ℕ) (x : Index) (acc : List Index) (hx : Valid (seen c) r x)
    (hf : ∏ d ∈ Finset.range r, seen c d ≤ number (seen c) r x + fuel) :
    ∃ l, loop c r fuel x acc = some (acc ++ l) ∧ l.length = (∏ d ∈ Finset.range r, seen c d) - number (seen c) r x ∧
      ∀ n (h : n < l.length), Valid (seen c) r l[n] ∧ number (seen c) r l[n] = number (seen c) r x + n := by
  have hlt := number_lt (seen c) r x hx.1
  induction fuel generalizing x acc with
  | zero => omega
  | succ fuel ih =>
    obtain ⟨i1, i2⟩ := carry_spec c r x hx.1
    unfold loop
    dsimp only
    by_cases hlast : number (seen c) r x + 1 = ∏ d ∈ Finset.range r, seen c d
    · rw [i2 hlast]
      refine ⟨[x], rfl, by simp; omega, fun n h => ?_⟩
      have : n = 0 := by simp at h; exact h
      subst this
      exact ⟨hx, rfl⟩
    · obtain ⟨y, y1, y2, y3, y4⟩ := i1 (by omega)
      rw [y1]
      have hy : Valid (seen c) r y := ⟨y2, fun d hd => by rw [y3 d hd]; exact hx.2 d hd⟩
      obtain ⟨l, l1, l2, l3⟩ := ih y (acc ++ [x]) hy (by omega) (number_lt (seen c) r y y2)
      refine ⟨x :: l, by show loop c r fuel y (acc ++ [x]) = _; rw [l1]; simp, by rw [List.length_cons]; omega, fun n h => ?_⟩
      cases n with
      | zero => exact ⟨hx, rfl⟩
      | succ n =>
        obtain ⟨q1, q2⟩ := l3 n (by simpa using h)
        exact ⟨q1, by rw [List.getElem_cons_succ, q2]; omega⟩

/-- Everything about the list of indices, with counts of zero as one. -/
theorem generate_seen (r fuel : ℕ) (shape ts : Index) (hf : ∏ d ∈ Finset.range r, seen (tileCounts shape ts) d ≤ fuel) :
    ∃ l, generate r fuel shape ts = some l ∧ l.length = ∏ d ∈ Finset.range r, seen (tileCounts shape ts) d ∧ l.Nodup ∧
      (∀ x, x ∈ l ↔ Valid (seen (tileCounts shape ts)) r x) ∧
      ∀ n (h : n < l.length), number (seen (tileCounts shape ts)) r l[n] = n := by
  generalize hm : seen (tileCounts shape ts) = m at *
  have h0 : Valid m r fun _ => 0 := ⟨fun d _ => by rw [← hm]; exact lt_of_lt_of_le one_pos (le_max_left _ _), fun _ _ => rfl⟩
  have n0 : number m r (fun _ => 0) = 0 := by
    clear hf h0
    induction r with
    | zero => rfl
    | succ r ih => rw [number, ih]; simp
  obtain ⟨l, l1, l2, l3⟩ := loop_spec (tileCounts shape ts) r fuel (fun _ => 0) [] (by rw [hm]; exact h0)
    (by rw [hm, n0]; omega)
  rw [hm, n0, Nat.sub_zero] at l2
  rw [hm] at l3
  have l4 : ∀ n (h : n < l.length), number m r l[n] = n := fun n h => by rw [(l3 n h).2, n0, zero_add]
  refine ⟨l, by unfold generate; rw [l1]; simp, l2, ?_, ?_, l4⟩
  · rw [List.nodup_iff_injective_getElem]
    intro a b hab
    have := l4 a.1 a.2
    dsimp only at hab
    rw [hab, l4 b.1 b.2] at this
    exact Fin.ext this.symm
  · intro x
    constructor
    · intro hx
      obtain ⟨n, hn, rfl⟩ := List.getElem_of_mem hx
      exact (l3 n hn).1
    · intro hx
      have hn : number m r x < l.length := by rw [l2]; exact number_lt m r x hx.1
      have e := number_inj m r x l[number m r x] hx.1 (l3 _ hn).1.1 (l4 _ hn).symm
      have : x = l[number m r x] := by
        funext d
        by_cases hd : d < r
        · exact e d hd
        · rw [hx.2 d (by omega), (l3 _ hn).1.2 d (by omega)]
      rw [this]
      exact List.getElem_mem _

theorem counts_pos {shape ts : Index} {d : ℕ} (hs : 0 < shape d) (ht : 0 < ts d) : 0 < tileCounts shape ts d := by
  unfold tileCounts
  exact Nat.div_pos (by omega) ht

/-- A place is in the tile of its quotient, and the counts are the quotients that occur. -/
theorem counts_iff {shape ts : Index} {d n : ℕ} (ht : 0 < ts d) : n < tileCounts shape ts d ↔ n * ts d < shape d := by
  unfold tileCounts
  rw [Nat.lt_iff_add_one_le, Nat.le_div_iff_mul_le ht, add_mul, one_mul]
  omega

/-- **C167**: all tiles.  The list has each index once whose tile begins inside of the tensor, and no other; the loop
ends after as many passes as there are tiles. -/
theorem tiles_listed (r fuel : ℕ) (shape ts : Index) (hs : ∀ d < r, 0 < shape d) (ht : ∀ d < r, 0 < ts d)
    (hf : ∏ d ∈ Finset.range r, tileCounts shape ts d ≤ fuel) :
    ∃ l, generate r fuel shape ts = some l ∧ l.Nodup ∧ l.length = ∏ d ∈ Finset.range r, tileCounts shape ts d ∧
      ∀ x, x ∈ l ↔ (∀ d < r, x d * ts d < shape d) ∧ ∀ d, r ≤ d → x d = 0 := by
  have e : ∏ d ∈ Finset.range r, seen (tileCounts shape ts) d = ∏ d ∈ Finset.range r, tileCounts shape ts d :=
    Finset.prod_congr rfl fun d hd => by
      have h := counts_pos (hs d (Finset.mem_range.1 hd)) (ht d (Finset.mem_range.1 hd))
      unfold seen
      omega
  obtain ⟨l, l1, l2, l3, l4, -⟩ := generate_seen r fuel shape ts (by rw [e]; exact hf)
  refine ⟨l, l1, l3, by rw [l2, e], fun x => ?_⟩
  rw [l4]
  unfold Valid
  refine and_congr_left fun _ => forall_congr' fun d => forall_congr' fun hd => ?_
  rw [← counts_iff (ht d hd)]
  have h := counts_pos (hs d hd) (ht d hd)
  unfold seen
  omega

/-- **C167**: row-major order.  An index before another one in the list is smaller in the first dimension in which they differ. -/
theorem listed_order (r fuel : ℕ) (shape ts : Index) (l : List Index) (h : generate r fuel shape ts = some l)
    (hf : ∏ d ∈ Finset.range r, max 1 (tileCounts shape ts d) ≤ fuel) (a b : ℕ) (ha : a < b) (hb : b < l.length) :
    ∃ d < r, (∀ e < d, l[a] e = l[b] e) ∧ l[a] d < l[b] d := by
  obtain ⟨l', l1, -, -, l4, l5⟩ := generate_seen r fuel shape ts hf
  rw [h] at l1
  obtain rfl : l = l' := by simpa using l1
  have va := ((l4 l[a]).1 (List.getElem_mem _)).1
  have vb := ((l4 l[b]).1 (List.getElem_mem _)).1
  have na := l5 a (by omega)
  have nb := l5 b hb
  have key : ∀ (m : Index) (r : ℕ) (x y : Index), (∀ d < r, x d < m d) → (∀ d < r, y d < m d) →
      number m r x < number m r y → ∃ d < r, (∀ e < d, x e = y e) ∧ x d < y d := by
    intro m r
    induction r with
    | zero => intro x y _ _ h; simp [number] at h
    | succ r ih =>
      intro x y hx hy hxy
      rw [number, number] at hxy
      rcases lt_trichotomy (number m r x) (number m r y) with h1 | h1 | h1
      · obtain ⟨d, hd, h2, h3⟩ := ih x y (fun d hd => hx d (by omega)) (fun d hd => hy d (by omega)) h1
        exact ⟨d, by omega, h2, h3⟩
      · refine ⟨r, by omega, number_inj m r x y (fun d hd => hx d (by omega)) (fun d hd => hy d (by omega)) h1, ?_⟩
        rw [h1] at hxy
        omega
      · exfalso
        have h2 : (number m r y + 1) * m r ≤ number m r x * m r := Nat.mul_le_mul_right _ h1
        have h3 := hy r (by omega)
        rw [add_mul, one_mul] at h2
        omega
  exact key _ r _ _ va vb (by rw [na, nb]; exact ha)

/-- **C167**: a tensor with an empty dimension still has tiles; the count of the empty dimension acts as one. -/
theorem empty_fails (r fuel : ℕ) (shape ts : Index) (d : ℕ) (hd : d < r) (hs : shape d = 0) (ht : 0 < ts d)
    (hf : ∏ d ∈ Finset.range r, max 1 (tileCounts shape ts d) ≤ fuel) :
    ∃ l, generate r fuel shape ts = some l ∧ l ≠ [] ∧ ∏ d ∈ Finset.range r, tileCounts shape ts d = 0 := by
  obtain ⟨l, l1, l2, -, l4, -⟩ := generate_seen r fuel shape ts hf
  refine ⟨l, l1, ?_, Finset.prod_eq_zero (Finset.mem_range.2 hd) ?_⟩
  · intro h
    have : (fun _ => 0) ∈ l := (l4 _).2 ⟨fun d _ => lt_of_lt_of_le one_pos (le_max_left _ _), fun _ _ => rfl⟩
    rw [h] at this
    simp at this
  · unfold tileCounts
    rw [hs]
    exact Nat.div_eq_of_lt (by omega)

/-- **C167**: the tiles are a partition: each place of the tensor is in the actual shape of exactly one tile, and no tile is
empty or reaches beyond the tensor. -/
theorem partition (r : ℕ) (shape ts : Index) (ht : ∀ d < r, 0 < ts d) :
    (∀ e : Index, (∀ d < r, e d < shape d) → ∀ x : Index,
      (∀ d < r, x d * ts d ≤ e d ∧ e d < x d * ts d + actualShape r shape ts x d) ↔ ∀ d < r, x d = e d / ts d) ∧
    ∀ x : Index, (∀ d < r, x d * ts d < shape d) → ∀ d < r, 0 < actualShape r shape ts x d ∧
      x d * ts d + actualShape r shape ts x d ≤ shape d ∧ actualShape r shape ts x d ≤ ts d := by
  constructor
  · intro e he x
    refine forall_congr' fun d => forall_congr' fun hd => ?_
    unfold actualShape
    rw [if_pos hd]
    have h1 := ht d hd
    have h2 := he d hd
    have h3 := Nat.div_add_mod (e d) (ts d)
    have h4 := Nat.mod_lt (e d) h1
    constructor
    · rintro ⟨q1, q2⟩
      symm
      rw [Nat.div_eq_iff h1]
      have : min (ts d) (shape d - x d * ts d) ≤ ts d := min_le_left _ _
      omega
    · intro h
      rw [h]
      rw [Nat.mul_comm (ts d)] at h3
      omega
  · intro x hx d hd
    have h1 := ht d hd
    have h2 := hx d hd
    unfold actualShape
    rw [if_pos hd]
    omega

open Classical in
/-- The loop of the constructor. -/
theorem place_fold {T : Type*} [Zero T] (r : ℕ) (shape ts : Index) (f : Index → Tile T → Tile T) (filter : Option (Index → Bool))
    (l : List Index) (m : Index → Option (Tile T)) :
    l.foldl (place r shape ts ⟨some f, filter⟩) (some m) = some fun i =>
      if i ∈ l ∧ filter.any (fun g => g i) = false then some (f i (Tile.make (actualShape r shape ts i))) else m i := by
  induction l generalizing m with
  | nil => simp
  | cons a l ih =>
    rw [List.foldl_cons]
    by_cases ha : filter.any (fun g => g a) = true
    · have : place r shape ts ⟨some f, filter⟩ (some m) a = some m := by
        unfold place; simp [ha]
      rw [this, ih]
      congr 1
      funext i
      by_cases hi : i = a
      · subst hi; simp [ha]
      · simp [hi]
    · have : place r shape ts ⟨some f, filter⟩ (some m) a = some fun i =>
          if i = a then some (f a (Tile.make (actualShape r shape ts a))) else m i := by
        unfold place; simp [ha]
      rw [this, ih]
      congr 1
      funext i
      by_cases hi : i = a
      · subst hi; simp [ha]
      · simp [hi]

open Classical in
/-- **C167**: with an initializer the tensor has exactly the tiles that are not skipped by the filter, each made by the initializer
from zeros with the shape of the tile. -/
theorem construct_partial {T : Type*} [Zero T] (r fuel : ℕ) (shape ts : Index) (hs : ∀ d < r, 0 < shape d) (ht : ∀ d < r, 0 < ts d)
    (hf : ∏ d ∈ Finset.range r, tileCounts shape ts d ≤ fuel) (f : Index → Tile T → Tile T) (filter : Option (Index → Bool)) :
    ∃ tiles, construct r fuel shape ts ⟨some f, filter⟩ = some tiles ∧ ∀ x : Index,
      ((∀ d < r, x d * ts d < shape d) ∧ (∀ d, r ≤ d → x d = 0) ∧ (∀ g, filter = some g → g x = false) →
        tiles x = some (f x ⟨actualShape r shape ts x, fun _ => 0⟩)) ∧
      (¬((∀ d < r, x d * ts d < shape d) ∧ (∀ d, r ≤ d → x d = 0) ∧ (∀ g, filter = some g → g x = false)) → tiles x = none) := by
  obtain ⟨l, l1, -, -, l4⟩ := tiles_listed r fuel shape ts hs ht hf
  refine ⟨_, by unfold construct; rw [l1]; exact place_fold r shape ts f filter l _, fun x => ?_⟩
  have hiff : (x ∈ l ∧ filter.any (fun g => g x) = false) ↔
      ((∀ d < r, x d * ts d < shape d) ∧ (∀ d, r ≤ d → x d = 0) ∧ (∀ g, filter = some g → g x = false)) := by
    rw [l4, and_assoc]
    refine and_congr_right fun _ => and_congr_right fun _ => ?_
    cases filter with
    | none => simp
    | some g => simp
  constructor
  · intro h
    rw [if_pos (hiff.2 h)]
    rfl
  · intro h
    rw [if_neg (fun h' => h (hiff.1 h'))]

/-- **C167**: a tensor cut into tiles: with an initializer that copies the tiles of `A`, each place is found in the tile of its
quotients at the remainders. -/
theorem dense_partial {T : Type*} [Zero T] (r fuel : ℕ) (shape ts : Index) (hs : ∀ d < r, 0 < shape d) (ht : ∀ d < r, 0 < ts d)
    (hf : ∏ d ∈ Finset.range r, tileCounts shape ts d ≤ fuel) (A : Index → T) :
    ∃ tiles, construct r fuel shape ts ⟨some fun x t => ⟨t.shape, fun o => A fun d => x d * ts d + o d⟩, none⟩ = some tiles ∧
      ∀ e : Index, (∀ d < r, e d < shape d) → (∀ d, r ≤ d → e d = 0) →
        ∃ t, tiles (fun d => e d / ts d) = some t ∧ (∀ d < r, e d % ts d < t.shape d) ∧ t.data (fun d => e d % ts d) = A e := by
  obtain ⟨tiles, t1, t2⟩ := construct_partial r fuel shape ts hs ht hf
    (fun x t => ⟨t.shape, fun o => A fun d => x d * ts d + o d⟩) none
  refine ⟨tiles, t1, fun e he he0 => ⟨_, (t2 _).1 ⟨fun d hd => ?_, fun d hd => by rw [he0 d hd]; simp, by simp⟩, fun d hd => ?_, ?_⟩⟩
  · exact lt_of_le_of_lt (Nat.div_mul_le_self _ _) (he d hd)
  · show e d % ts d < actualShape r shape ts (fun d => e d / ts d) d
    unfold actualShape
    rw [if_pos hd]
    have h1 := Nat.mod_lt (e d) (ht d hd)
    have h2 := he d hd
    have h3 := Nat.div_add_mod (e d) (ts d)
    rw [Nat.mul_comm] at h3
    dsimp only
    omega
  · show A (fun d => e d / ts d * ts d + e d % ts d) = A e
    congr 1
    funext d
    rw [Nat.mul_comm]
    exact Nat.div_add_mod _ _

/-- **C167**: without an initializer the constructor ends with `std::bad_function_call`, unless the filter skips all tiles. -/
theorem initializer_fails {T : Type*} [Zero T] (r fuel : ℕ) (shape ts : Index) (hs : ∀ d < r, 0 < shape d) (ht : ∀ d < r, 0 < ts d)
    (hf : ∏ d ∈ Finset.range r, tileCounts shape ts d ≤ fuel) (filter : Option (Index → Bool)) :
    (construct (T := T) r fuel shape ts ⟨none, filter⟩).isSome ↔
      ∀ x : Index, (∀ d < r, x d * ts d < shape d) → (∀ d, r ≤ d → x d = 0) → ∃ g, filter = some g ∧ g x = true := by
  obtain ⟨l, l1, -, -, l4⟩ := tiles_listed r fuel shape ts hs ht hf
  unfold construct
  rw [l1, Option.bind_some]
  have none_fold : ∀ l : List Index, l.foldl (place (T := T) r shape ts ⟨none, filter⟩) none = none := by
    intro l
    induction l with
    | nil => rfl
    | cons a l ih => rw [List.foldl_cons]; exact ih
  have key : ∀ (l : List Index) (m : Index → Option (Tile T)),
      (l.foldl (place (T := T) r shape ts ⟨none, filter⟩) (some m)).isSome ↔ ∀ x ∈ l, ∃ g, filter = some g ∧ g x = true := by
    intro l
    induction l with
    | nil => intro m; simp
    | cons a l ih =>
      intro m
      rw [List.foldl_cons]
      by_cases ha : filter.any (fun g => g a) = true
      · have : place (T := T) r shape ts ⟨none, filter⟩ (some m) a = some m := by unfold place; simp [ha]
        rw [this, ih, List.forall_mem_cons]
        have hg : ∃ g, filter = some g ∧ g a = true := by
          cases filter with
          | none => simp at ha
          | some g => exact ⟨g, rfl, by simpa using ha⟩
        exact ⟨fun h => ⟨hg, h⟩, fun h => h.2⟩
      · have : place (T := T) r shape ts ⟨none, filter⟩ (some m) a = none := by unfold place; simp [ha]
        rw [this, none_fold]
        constructor
        · intro h; simp at h
        · intro h
          exfalso
          obtain ⟨g, g1, g2⟩ := h a (by simp)
          exact ha (by rw [g1]; simpa using g2)
  rw [key]
  constructor
  · intro h x h1 h2
    exact h x ((l4 x).2 ⟨h1, h2⟩)
  · intro h x hx
    exact h x ((l4 x).1 hx).1 ((l4 x).1 hx).2

/-- **C167**: transposing twice is transposing with the composed order, and transposing back gives the tile. -/
theorem transpose_spec {T : Type*} (a : Tile T) (p q : Equiv.Perm ℕ) :
    (a.transpose p).transpose q = a.transpose (q.trans p) ∧ (a.transpose p).transpose p.symm = a ∧
      ∀ x : Index, (∀ i, x i < (a.transpose p).shape i) →
        (a.transpose p).data x = a.data (fun j => x (p.symm j)) ∧ ∀ j, x (p.symm j) < a.shape j := by
  refine ⟨rfl, ?_, fun x hx => ⟨rfl, fun j => ?_⟩⟩
  · cases a
    simp [Tile.transpose]
  · have := hx (p.symm j)
    simpa [Tile.transpose] using this

/-- **C167**: the sum of two tiles needs tiles of the same shape, and is the sum at each place. -/
theorem add_spec {T : Type*} [Add T] (r : ℕ) (a b c : Tile T) :
    a.add r b = some c ↔ (∀ i < r, a.shape i = b.shape i) ∧ c.shape = a.shape ∧ ∀ x, c.data x = a.data x + b.data x := by
  unfold Tile.add
  by_cases h : ∀ i < r, a.shape i = b.shape i
  · rw [if_pos h]
    constructor
    · intro e
      obtain rfl := Option.some.inj e
      exact ⟨h, rfl, fun _ => rfl⟩
    · rintro ⟨-, h1, h2⟩
      cases c
      dsimp only at h1 h2
      subst h1
      congr 2
      funext x
      exact (h2 x).symm
  · rw [if_neg h]
    simp only [reduceCtorEq, false_iff, not_and]
    exact fun h' => absurd h' h

/-- The strides as products. -/
theorem stride_eq (r size : ℕ) (shape : Index) (i : ℕ) (hi : i < r) :
    stride r size shape i = size * ∏ e ∈ Finset.Ioo i r, shape e := by
  have key : ∀ k, k < r → strideBack r size shape k = size * ∏ e ∈ Finset.Ioo (r - 1 - k) r, shape e := by
    intro k
    induction k with
    | zero =>
      intro h
      have : Finset.Ioo (r - 1 - 0) r = ∅ := by
        ext e; simp; omega
      rw [this]
      simp [strideBack]
    | succ k ih =>
      intro h
      rw [strideBack, ih (by omega)]
      have : Finset.Ioo (r - 1 - (k + 1)) r = insert (r - 1 - k) (Finset.Ioo (r - 1 - k) r) := by
        ext e; simp; omega
      rw [this, Finset.prod_insert (by simp)]
      ring
  unfold stride
  rw [key _ (by omega)]
  congr 3
  omega

/-- **C167**: the array handed to Python: the places of the entries are multiples of the size of an entry, inside of the buffer, and
different for different indices. -/
theorem strides_spec (r size : ℕ) (shape : Index) (x : Index) (hx : ∀ d < r, x d < shape d) :
    (∃ n, n < ∏ d ∈ Finset.range r, shape d ∧ ∑ d ∈ Finset.range r, x d * stride r size shape d = n * size) ∧
      ∀ y : Index, (∀ d < r, y d < shape d) → 0 < size →
        ∑ d ∈ Finset.range r, x d * stride r size shape d = ∑ d ∈ Finset.range r, y d * stride r size shape d →
        ∀ d < r, x d = y d := by
  have key : ∀ (k : ℕ), k ≤ r → ∀ x : Index, ∑ d ∈ Finset.range k, x d * ∏ e ∈ Finset.Ioo d k, shape e = number shape k x := by
    intro k
    induction k with
    | zero => intro _ x; simp [number]
    | succ k ih =>
      intro hk x
      rw [Finset.sum_range_succ, number, ← ih (by omega) x, Finset.sum_mul]
      congr 1
      · apply Finset.sum_congr rfl
        intro d hd
        have hd := Finset.mem_range.1 hd
        have : Finset.Ioo d (k + 1) = insert k (Finset.Ioo d k) := by
          ext e; simp; omega
        rw [this, Finset.prod_insert (by simp)]
        ring
      · have : Finset.Ioo k (k + 1) = ∅ := by
          ext e; simp
        rw [this]
        simp
  have tot : ∀ x : Index, ∑ d ∈ Finset.range r, x d * stride r size shape d = number shape r x * size := by
    intro x
    rw [← key r le_rfl x, Finset.sum_mul]
    apply Finset.sum_congr rfl
    intro d hd
    rw [stride_eq r size shape d (Finset.mem_range.1 hd)]
    ring
  refine ⟨⟨_, number_lt shape r x hx, tot x⟩, fun y hy hp h => ?_⟩
  rw [tot, tot] at h
  exact number_inj shape r x y hx hy (Nat.eq_of_mul_eq_mul_right hp h)

example : ((generate 2 100 (fun d => if d = 0 then 5 else 3) (fun _ => 2)).map fun l => l.map fun x => (x 0, x 1))
    = some [(0, 0), (0, 1), (1, 0), (1, 1), (2, 0), (2, 1)] := by
  decide

example : stride 3 8 (fun d => [4, 3, 5].getD d 1) 0 = 120 ∧ stride 3 8 (fun d => [4, 3, 5].getD d 1) 1 = 40
    ∧ stride 3 8 (fun d => [4, 3, 5].getD d 1) 2 = 8 := by
  decide

example : actualShape 2 (fun d => if d = 0 then 5 else 3) (fun _ => 2) (fun d => if d = 0 then 2 else 0) 0 = 1 := by
  decide

end OpenMS.TiledTensor
