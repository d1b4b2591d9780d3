import Verif.Model.PyTiles

/-!
# C171: tiled matrices in Python
-/

namespace OpenMS.PyTiles

set_option linter.unusedSectionVars false

/-! ### Partitions -/

theorem valid_iff (e : Part) : Valid e ↔ 2 ≤ e.length ∧ start e 0 = 0 ∧ ∀ t < ntile e, start e t < stop e t := by
  unfold Valid start stop ntile
  push Not
  rfl

theorem start_mono {e : Part} (h : Valid e) {s t : ℕ} (hst : s ≤ t) (ht : t ≤ ntile e) : start e s ≤ start e t := by
  obtain ⟨_, _, h3⟩ := (valid_iff e).1 h
  induction t with
  | zero => have : s = 0 := by omega
            rw [this]
  | succ t ih =>
    rcases Nat.lt_or_ge s (t + 1) with h' | h'
    · exact (ih (by omega) (by omega)).trans (h3 t (by omega)).le
    · have : s = t + 1 := by omega
      rw [this]

theorem stop_le {e : Part} (h : Valid e) {t : ℕ} (ht : t < ntile e) : stop e t ≤ total e :=
  start_mono h (show t + 1 ≤ ntile e by omega) le_rfl

theorem tile_exists {e : Part} (h : Valid e) {p : ℕ} (hp : p < total e) : ∃ t < ntile e, inTile e t p := by
  obtain ⟨h1, h2, _⟩ := (valid_iff e).1 h
  have ex : ∃ t, t < ntile e ∧ p < stop e t := by
    refine ⟨ntile e - 1, by unfold ntile; omega, ?_⟩
    have : stop e (ntile e - 1) = total e := by
      unfold stop total ntile
      congr 1
      omega
    rw [this]
    exact hp
  obtain ⟨ht, hlt⟩ := Nat.find_spec ex
  refine ⟨Nat.find ex, ht, ?_, hlt⟩
  rcases Nat.eq_zero_or_pos (Nat.find ex) with h0 | h0
  · rw [h0, h2]; omega
  · have := Nat.find_min ex (show Nat.find ex - 1 < Nat.find ex by omega)
    push Not at this
    have h5 := this (by omega)
    have h6 : ∀ n, 0 < n → stop e (n - 1) = start e n := by
      intro n hn
      unfold stop start
      rw [Nat.sub_add_cancel hn]
    rw [← h6 _ h0]
    exact h5

theorem tile_unique {e : Part} (h : Valid e) {s t p : ℕ} (hs : s < ntile e) (ht : t < ntile e) (h1 : inTile e s p) (h2 : inTile e t p) :
    s = t := by
  unfold inTile at h1 h2
  rcases Nat.lt_trichotomy s t with h' | h' | h'
  · have : stop e s ≤ start e t := start_mono h (show s + 1 ≤ t by omega) (by omega)
    omega
  · exact h'
  · have : stop e t ≤ start e s := start_mono h (show t + 1 ≤ s by omega) (by omega)
    omega

/-- **C171**: the tiles of a partition that passes the check are not empty, and every index below the total is in exactly one of them. -/
theorem partition_spec (e : Part) (h : make e = .ok e) :
    (∀ t < ntile e, 0 < size e t ∧ stop e t ≤ total e) ∧ ∀ p < total e, ∃! t, t < ntile e ∧ start e t ≤ p ∧ p < stop e t := by
  have hv : Valid e := by
    unfold make at h
    by_contra hn
    rw [if_neg hn] at h
    simp at h
  refine ⟨fun t ht => ⟨?_, stop_le hv ht⟩, fun p hp => ?_⟩
  · have := ((valid_iff e).1 hv).2.2 t ht
    unfold size
    omega
  · obtain ⟨t, ht, hi⟩ := tile_exists hv hp
    exact ⟨t, ⟨ht, hi⟩, fun s hs => tile_unique hv hs.1 ht hs.2 hi⟩

theorem edges_length (acc : ℕ) (l : List ℕ) : (edgesFrom acc l).length = l.length := by
  induction l generalizing acc with
  | nil => rfl
  | cons s l ih => simp [edgesFrom, ih]

theorem edges_getD (acc : ℕ) (l : List ℕ) (k : ℕ) (hk : k ≤ l.length) : (acc :: edgesFrom acc l).getD k 0 = acc + (l.take k).sum := by
  induction l generalizing acc k with
  | nil => have : k = 0 := by simpa using hk
           subst this; simp
  | cons s l ih =>
    cases k with
    | zero => simp
    | succ k =>
      have := ih (acc + s) k (by simpa using hk)
      simp only [edgesFrom, List.getD_cons_succ, List.take_succ_cons, List.sum_cons]
      rw [this]
      omega

/-- **C171**: `from_sizes` makes the tiles of the given sizes, and raises an error exactly if there are none or one is zero. -/
theorem fromSizes_spec (l : List ℕ) :
    (l ≠ [] → 0 ∉ l → ∃ e, fromSizes l = .ok e ∧ make e = .ok e ∧ ntile e = l.length ∧ total e = l.sum ∧
      ∀ k < l.length, start e k = (l.take k).sum ∧ size e k = l.getD k 0) ∧
    (l = [] ∨ 0 ∈ l → fromSizes l = .error .value) := by
  constructor
  · intro hl h0
    have hany : (l.any (· ≤ 0)) = false := by
      rw [List.any_eq_false]
      intro x hx
      have : x ≠ 0 := fun e => h0 (e ▸ hx)
      simpa using this
    have hst : ∀ k ≤ l.length, start (0 :: edgesFrom 0 l) k = (l.take k).sum := by
      intro k hk
      unfold start
      rw [edges_getD 0 l k hk, zero_add]
    have hlen : (0 :: edgesFrom 0 l).length = l.length + 1 := by rw [List.length_cons, edges_length]
    have hnt : ntile (0 :: edgesFrom 0 l) = l.length := by unfold ntile; rw [hlen]; omega
    have hstep : ∀ k < l.length, stop (0 :: edgesFrom 0 l) k = (l.take k).sum + l.getD k 0 := by
      intro k hk
      have := hst (k + 1) hk
      unfold stop
      unfold start at this
      rw [this, List.take_add_one, List.sum_append, List.getElem?_eq_getElem hk]
      simp [List.getD_eq_getElem?_getD, List.getElem?_eq_getElem hk]
    have hpos : ∀ k < l.length, 0 < l.getD k 0 := by
      intro k hk
      rw [List.getD_eq_getElem?_getD, List.getElem?_eq_getElem hk]
      have : l[k] ≠ 0 := fun e => h0 (e ▸ List.getElem_mem hk)
      simp
      omega
    have hv : Valid (0 :: edgesFrom 0 l) := by
      rw [valid_iff]
      refine ⟨?_, rfl, ?_⟩
      · rw [hlen]
        have := List.length_pos_of_ne_nil hl
        omega
      · intro t ht
        rw [hnt] at ht
        rw [hst t ht.le, hstep t ht]
        have := hpos t ht
        omega
    refine ⟨0 :: edgesFrom 0 l, ?_, ?_, hnt, ?_, fun k hk => ⟨hst k hk.le, ?_⟩⟩
    · unfold fromSizes make
      rw [hany, if_pos hv]
      rfl
    · unfold make
      rw [if_pos hv]
    · have := hst l.length le_rfl
      unfold start at this
      unfold total
      rw [hlen, Nat.add_sub_cancel, this, List.take_length]
    · unfold size
      rw [hstep k hk, hst k hk.le]
      omega
  · intro h
    unfold fromSizes
    rcases h with rfl | h
    · decide
    · rw [if_pos]
      rw [List.any_eq_true]
      exact ⟨0, h, by simp⟩

/-- **C171**: `uniform` makes tiles of the given size, the last one with the rest, and raises an error exactly for size or total zero. -/
theorem uniform_spec (N t : ℕ) :
    (0 < N → 0 < t → ∃ e, uniform N t = .ok e ∧ make e = .ok e ∧ total e = N ∧ ntile e = (N + t - 1) / t ∧
      ∀ k < ntile e, start e k = k * t ∧ stop e k = min ((k + 1) * t) N) ∧
    (N = 0 ∨ t = 0 → uniform N t = .error .value) := by
  constructor
  · intro hN ht
    obtain ⟨l, hl⟩ : ∃ l, l = List.replicate (N / t) t ++ (if N % t ≠ 0 then [N % t] else []) := ⟨_, rfl⟩
    have hdm := Nat.div_add_mod N t
    have hlt := Nat.mod_lt N ht
    obtain ⟨q, hq⟩ : ∃ q, q = N / t := ⟨_, rfl⟩
    obtain ⟨r, hr⟩ : ∃ r, r = N % t := ⟨_, rfl⟩
    rw [← hq, ← hr] at hl hdm
    rw [← hr] at hlt
    have hlen : l.length = if r ≠ 0 then q + 1 else q := by
      rw [hl]; split_ifs <;> simp
    have hne : l ≠ [] := by
      intro h0
      rw [h0] at hlen
      by_cases hr0 : r ≠ 0
      · rw [if_pos hr0] at hlen; simp at hlen
      · rw [if_neg hr0] at hlen
        have hq0 : q = 0 := by simpa using hlen.symm
        push Not at hr0
        rw [hq0, hr0] at hdm
        omega
    have h0 : 0 ∉ l := by
      rw [hl, List.mem_append]
      rintro (h | h)
      · have := List.eq_of_mem_replicate h
        omega
      · by_cases hr0 : r ≠ 0
        · rw [if_pos hr0] at h
          simp at h
          exact hr0 h.symm
        · rw [if_neg hr0] at h
          simp at h
    obtain ⟨e, he, hm, hnt, htot, hk⟩ := (fromSizes_spec l).1 hne h0
    have hsum : l.sum = N := by
      rw [hl, List.sum_append, List.sum_replicate, smul_eq_mul]
      by_cases hr0 : r ≠ 0
      · rw [if_pos hr0]; simp; rw [mul_comm]; exact hdm
      · rw [if_neg hr0]
        push Not at hr0
        rw [hr0] at hdm
        simp; rw [mul_comm]; exact hdm
    have hceil : ntile e = (N + t - 1) / t := by
      rw [hnt, hlen]
      symm
      by_cases hr0 : r ≠ 0
      · rw [if_pos hr0, ← hdm, show t * q + r + t - 1 = (r - 1) + t * (q + 1) by rw [mul_add]; omega, Nat.add_mul_div_left _ _ ht,
          Nat.div_eq_of_lt (by omega)]
        omega
      · rw [if_neg hr0]
        push Not at hr0
        rw [hr0] at hdm
        rw [← hdm, show t * q + 0 + t - 1 = (t - 1) + t * q by omega, Nat.add_mul_div_left _ _ ht, Nat.div_eq_of_lt (by omega)]
        omega
    refine ⟨e, ?_, hm, by rw [htot, hsum], hceil, ?_⟩
    · unfold uniform
      rw [if_neg (by omega)]
      simp only [← hq, ← hr, ← hl]
      rw [if_pos hne]
      exact he
    · intro k hkn
      rw [hnt] at hkn
      obtain ⟨hs, hz⟩ := hk k hkn
      have hkq : k ≤ q := by
        rw [hlen] at hkn
        split_ifs at hkn <;> omega
      have h1 : start e k = k * t := by
        rw [hs, hl, List.take_append_of_le_length (by simpa using hkq), List.take_replicate, min_eq_left hkq, List.sum_replicate, smul_eq_mul]
      refine ⟨h1, ?_⟩
      have hpos : start e k ≤ stop e k := by
        have := ((partition_spec e hm).1 k (by omega)).1
        unfold size at this
        omega
      have h2 : stop e k = k * t + l.getD k 0 := by
        unfold size at hz
        omega
      rw [h2, hl]
      rcases Nat.lt_or_ge k q with h | h
      · rw [List.getD_eq_getElem?_getD, List.getElem?_append_left (by simpa using h), List.getElem?_replicate, if_pos h, Option.getD_some]
        have : (k + 1) * t ≤ q * t := Nat.mul_le_mul_right _ h
        rw [min_eq_left (by rw [← hdm, mul_comm t q]; omega), add_mul, one_mul]
      · have : k = q := by omega
        subst this
        have hr0 : r ≠ 0 := by
          intro hr0
          rw [hlen, if_neg (by simpa using hr0)] at hkn
          omega
        rw [if_pos hr0, List.getD_eq_getElem?_getD, List.getElem?_append_right (by simp)]
        simp
        rw [min_eq_right (by rw [← hdm, add_mul, one_mul, mul_comm t k]; omega), ← hdm, mul_comm]
  · rintro (rfl | rfl)
    · unfold uniform
      by_cases ht : t ≤ 0
      · rw [if_pos ht]
      · rw [if_neg ht]
        simp [fromSizes]
    · unfold uniform
      rw [if_pos le_rfl]

/-! ### Loops over dictionaries -/

section
variable {R : Type*} [Field R] {α : Type*}

theorem foldl_none (l : List α) (c : α → Prop) [DecidablePred c] (f : α → R) (z : R) (h : ∀ a ∈ l, ¬ c a) :
    l.foldl (fun out it => if c it then f it else out) z = z := by
  induction l generalizing z with
  | nil => rfl
  | cons a l ih => rw [List.foldl_cons, if_neg (h a (by simp))]; exact ih z fun b hb => h b (by simp [hb])

theorem foldl_write (l : List α) (c : α → Prop) [DecidablePred c] (f : α → R) (h : l.Pairwise fun a b => ¬(c a ∧ c b)) :
    l.foldl (fun out it => if c it then f it else out) 0 = (l.map fun it => if c it then f it else 0).sum := by
  induction l with
  | nil => rfl
  | cons a l ih =>
    rw [List.pairwise_cons] at h
    rw [List.foldl_cons, List.map_cons, List.sum_cons]
    by_cases ha : c a
    · have hn : ∀ b ∈ l, ¬ c b := fun b hb hc => h.1 b hb ⟨ha, hc⟩
      rw [if_pos ha, foldl_none l c f _ hn]
      have : (l.map fun it => if c it then f it else 0) = l.map fun _ => (0 : R) :=
        List.map_congr_left fun b hb => if_neg (hn b hb)
      rw [this]
      simp
    · rw [if_neg ha, zero_add]
      exact ih h.2

theorem foldl_add (l : List α) (c : α → Prop) [DecidablePred c] (f : α → R) (z : R) :
    l.foldl (fun Y it => if c it then Y + f it else Y) z = z + (l.map fun it => if c it then f it else 0).sum := by
  induction l generalizing z with
  | nil => simp
  | cons a l ih =>
    rw [List.foldl_cons, ih, List.map_cons, List.sum_cons]
    split_ifs <;> ring

theorem sum_mul_list (l : List α) (s : Finset ℕ) (g : α → ℕ → R) (B : ℕ → R) :
    ∑ q ∈ s, (l.map fun it => g it q).sum * B q = (l.map fun it => ∑ q ∈ s, g it q * B q).sum := by
  induction l with
  | nil => simp
  | cons a l ih => simp only [List.map_cons, List.sum_cons, add_mul, Finset.sum_add_distrib, ih]

theorem slice_sum (a b N : ℕ) (h : b ≤ N) (f : ℕ → R) :
    ∑ k ∈ Finset.range (b - a), f (a + k) = ∑ q ∈ Finset.range N, if a ≤ q ∧ q < b then f q else 0 := by
  rw [← Finset.sum_Ico_eq_sum_range, ← Finset.sum_filter]
  refine Finset.sum_congr ?_ fun _ _ => rfl
  ext q
  simp only [Finset.mem_Ico, Finset.mem_filter, Finset.mem_range]
  omega
end

variable {R : Type*} [Field R] [LinearOrder R] [IsStrictOrderedRing R]

/-- A tensor as its methods leave it: no key twice, tiles inside of the partitions. -/
structure Ok (L : Sparse R) : Prop where
  rows : Valid L.rows
  cols : Valid L.cols
  square : total L.rows = total L.cols
  keys : (L.blocks.map (·.1)).Nodup
  range : ∀ it ∈ L.blocks, it.1.2.1 < ntile L.rows ∧ it.1.2.2 < ntile L.cols

/-- The same for a tiled matrix. -/
structure OkT (T : Tiled R) : Prop where
  rows : Valid T.rows
  cols : Valid T.cols
  keys : (T.blocks.map (·.1)).Nodup
  range : ∀ it ∈ T.blocks, it.1.1 < ntile T.rows ∧ it.1.2 < ntile T.cols

theorem dense_sum (L : Sparse R) (h : Ok L) (i p q : ℕ) :
    L.toDense i p q = (L.blocks.map fun it => if it.1.1 = i ∧ inTile L.rows it.1.2.1 p ∧ inTile L.cols it.1.2.2 q
      then it.2 (p - start L.rows it.1.2.1) (q - start L.cols it.1.2.2) else 0).sum := by
  unfold Sparse.toDense
  refine foldl_write L.blocks (fun it => it.1.1 = i ∧ inTile L.rows it.1.2.1 p ∧ inTile L.cols it.1.2.2 q) _ ?_
  have hk := h.keys
  rw [List.Nodup, List.pairwise_map] at hk
  refine hk.imp_of_mem fun {a b} ha hb hab hc => hab ?_
  obtain ⟨⟨a1, a2, a3⟩, b1, b2, b3⟩ := hc
  refine Prod.ext (a1.trans b1.symm) (Prod.ext ?_ ?_)
  · exact tile_unique h.rows (h.range a ha).1 (h.range b hb).1 a2 b2
  · exact tile_unique h.cols (h.range a ha).2 (h.range b hb).2 a3 b3

theorem find_key {K V : Type*} [DecidableEq K] (l : List (K × V)) (hk : (l.map (·.1)).Nodup) (it : K × V) (h : it ∈ l) :
    l.find? (·.1 = it.1) = some it := by
  induction l with
  | nil => simp at h
  | cons a l ih =>
    rw [List.map_cons, List.nodup_cons] at hk
    rcases List.mem_cons.1 h with rfl | h
    · simp
    · have : a.1 ≠ it.1 := fun e => hk.1 (e ▸ List.mem_map.2 ⟨it, h, rfl⟩)
      rw [List.find?_cons_of_neg (by simpa using this)]
      exact ih hk.2 h

theorem list_single {α : Type*} (l : List α) (hn : l.Nodup) (a : α) (ha : a ∈ l) (f : α → R) (h : ∀ b ∈ l, b ≠ a → f b = 0) :
    (l.map f).sum = f a := by
  induction l with
  | nil => simp at ha
  | cons b l ih =>
    rw [List.nodup_cons] at hn
    rw [List.map_cons, List.sum_cons]
    rcases List.mem_cons.1 ha with rfl | ha
    · have : l.map f = l.map fun _ => (0 : R) :=
        List.map_congr_left fun b hb => h b (by simp [hb]) fun e => hn.1 (e ▸ hb)
      rw [this]; simp
    · rw [ih hn.2 ha fun b hb => h b (by simp [hb]), h b (by simp) fun e => hn.1 (e ▸ ha), zero_add]

theorem tiled_dense (T : Tiled R) (h : OkT T) {br bc p q : ℕ} (hr : br < ntile T.rows) (hc : bc < ntile T.cols) (hp : inTile T.rows br p)
    (hq : inTile T.cols bc q) : T.toDense p q = T.getBlock br bc (p - start T.rows br) (q - start T.cols bc) := by
  have key : ∀ it ∈ T.blocks, (inTile T.rows it.1.1 p ∧ inTile T.cols it.1.2 q) → it.1 = (br, bc) := by
    intro it hit hh
    exact Prod.ext (tile_unique h.rows (h.range it hit).1 hr hh.1 hp) (tile_unique h.cols (h.range it hit).2 hc hh.2 hq)
  have hd : T.toDense p q = (T.blocks.map fun it => if inTile T.rows it.1.1 p ∧ inTile T.cols it.1.2 q
      then it.2 (p - start T.rows it.1.1) (q - start T.cols it.1.2) else 0).sum := by
    unfold Tiled.toDense
    refine foldl_write T.blocks (fun it => inTile T.rows it.1.1 p ∧ inTile T.cols it.1.2 q) _ ?_
    have hk := h.keys
    rw [List.Nodup, List.pairwise_map] at hk
    exact hk.imp_of_mem fun {a b} ha hb hab hc => hab ((key a ha hc.1).trans (key b hb hc.2).symm)
  rw [hd]
  unfold Tiled.getBlock
  by_cases ex : ∃ it ∈ T.blocks, it.1 = (br, bc)
  · obtain ⟨it, hit, e⟩ := ex
    rw [← e, find_key T.blocks h.keys it hit]
    rw [list_single T.blocks (List.Nodup.of_map _ h.keys) it hit]
    · have e1 : it.1.1 = br := by rw [e]
      have e2 : it.1.2 = bc := by rw [e]
      rw [if_pos (by rw [e1, e2]; exact ⟨hp, hq⟩), e1, e2]
      rfl
    · intro b hb hne
      rw [if_neg]
      intro hh
      have := find_key T.blocks h.keys b hb
      rw [key b hb hh, ← e, find_key T.blocks h.keys it hit] at this
      exact hne (Option.some.inj this).symm
  · push Not at ex
    rw [List.find?_eq_none.2 (by simpa using fun a b c hm => ex ((a, b), c) hm)]
    have : (T.blocks.map fun it => if inTile T.rows it.1.1 p ∧ inTile T.cols it.1.2 q
      then it.2 (p - start T.rows it.1.1) (q - start T.cols it.1.2) else 0) = T.blocks.map fun _ => (0 : R) :=
      List.map_congr_left fun it hit => if_neg fun hh => ex it hit (key it hit hh)
    rw [this]
    simp

/-- **C171**: the product with a dense matrix from the right is that of the dense tensor. -/
theorem rightDense_spec (L : Sparse R) (h : Ok L) (i : ℕ) (B : ℕ → ℕ → R) (p m : ℕ) :
    L.rightDense i B p m = ∑ q ∈ Finset.range (total L.cols), L.toDense i p q * B q m := by
  simp only [dense_sum L h]
  rw [sum_mul_list]
  have e : L.rightDense i B p m = L.blocks.foldl (fun Y it => if it.1.1 = i ∧ inTile L.rows it.1.2.1 p
      then Y + ∑ k ∈ Finset.range (size L.cols it.1.2.2), it.2 (p - start L.rows it.1.2.1) k * B (start L.cols it.1.2.2 + k) m else Y) 0 := by
    unfold Sparse.rightDense
    congr 1
    funext Y it
    by_cases h1 : it.1.1 = i <;> by_cases h2 : inTile L.rows it.1.2.1 p <;> simp [h1, h2]
  rw [e, foldl_add, zero_add]
  congr 1
  refine List.map_congr_left fun it hit => ?_
  by_cases hc : it.1.1 = i ∧ inTile L.rows it.1.2.1 p
  · rw [if_pos hc]
    have := slice_sum (start L.cols it.1.2.2) (stop L.cols it.1.2.2) (total L.cols) (stop_le h.cols (h.range it hit).2)
      fun q => it.2 (p - start L.rows it.1.2.1) (q - start L.cols it.1.2.2) * B q m
    simp only [Nat.add_sub_cancel_left] at this
    unfold size
    rw [this]
    refine Finset.sum_congr rfl fun q _ => ?_
    by_cases hq : start L.cols it.1.2.2 ≤ q ∧ q < stop L.cols it.1.2.2
    · rw [if_pos hq, if_pos ⟨hc.1, hc.2, hq⟩]
    · rw [if_neg hq, if_neg fun hh => hq hh.2.2, zero_mul]
  · rw [if_neg hc]
    symm
    exact Finset.sum_eq_zero fun q _ => by rw [if_neg fun hh => hc ⟨hh.1, hh.2.1⟩, zero_mul]

/-- **C171**: the product with a dense matrix from the left is that of the dense tensor. -/
theorem leftDense_spec (L : Sparse R) (h : Ok L) (i : ℕ) (B : ℕ → ℕ → R) (m q : ℕ) :
    L.leftDense i B m q = ∑ p ∈ Finset.range (total L.rows), B m p * L.toDense i p q := by
  simp only [dense_sum L h, mul_comm (B m _)]
  rw [sum_mul_list]
  have e : L.leftDense i B m q = L.blocks.foldl (fun Y it => if it.1.1 = i ∧ inTile L.cols it.1.2.2 q
      then Y + ∑ k ∈ Finset.range (size L.rows it.1.2.1), B m (start L.rows it.1.2.1 + k) * it.2 k (q - start L.cols it.1.2.2) else Y) 0 := by
    unfold Sparse.leftDense
    congr 1
    funext Y it
    by_cases h1 : it.1.1 = i <;> by_cases h2 : inTile L.cols it.1.2.2 q <;> simp [h1, h2]
  rw [e, foldl_add, zero_add]
  congr 1
  refine List.map_congr_left fun it hit => ?_
  by_cases hc : it.1.1 = i ∧ inTile L.cols it.1.2.2 q
  · rw [if_pos hc]
    have := slice_sum (start L.rows it.1.2.1) (stop L.rows it.1.2.1) (total L.rows) (stop_le h.rows (h.range it hit).1)
      fun p => B m p * it.2 (p - start L.rows it.1.2.1) (q - start L.cols it.1.2.2)
    simp only [Nat.add_sub_cancel_left] at this
    unfold size
    rw [this]
    refine Finset.sum_congr rfl fun p _ => ?_
    by_cases hp : start L.rows it.1.2.1 ≤ p ∧ p < stop L.rows it.1.2.1
    · rw [if_pos hp, if_pos ⟨hc.1, hp, hc.2⟩, mul_comm]
    · rw [if_neg hp, if_neg fun hh => hp hh.2.1, zero_mul]
  · rw [if_neg hc]
    symm
    exact Finset.sum_eq_zero fun p _ => by rw [if_neg fun hh => hc ⟨hh.1, hh.2.2⟩, zero_mul]

/-- A loop over the tiles of a partition finds the tile of an index. -/
theorem loop_tiles (e : Part) (he : Valid e) (m : ℕ) (hm : m < total e) (c : Prop) [Decidable c] (f : ℕ → R) (Y v : R)
    (hf : ∀ t < ntile e, inTile e t m → f t = v) :
    (List.range (ntile e)).foldl (fun Y t => if c ∧ inTile e t m then Y + f t else Y) Y = if c then Y + v else Y := by
  rw [foldl_add]
  by_cases hc : c
  · rw [if_pos hc]
    obtain ⟨t, ht, hi⟩ := tile_exists he hm
    rw [list_single _ List.nodup_range t (List.mem_range.2 ht), if_pos ⟨hc, hi⟩, hf t ht hi]
    intro s hs hne
    exact if_neg fun hh => hne (tile_unique he (List.mem_range.1 hs) ht hh.2 hi)
  · rw [if_neg hc]
    have : ((List.range (ntile e)).map fun t => if c ∧ inTile e t m then f t else 0) = (List.range (ntile e)).map fun _ => (0 : R) :=
      List.map_congr_left fun t _ => if_neg fun hh => hc hh.1
    rw [this]
    simp

/-- **C171**: the product with a tiled matrix from the right, if its rows have the tiles of the columns of the tensor. -/
theorem rightTiled_partial (L : Sparse R) (h : Ok L) (i : ℕ) (B : Tiled R) (hB : OkT B) (ht : B.rows = L.cols) :
    ∃ Y, L.rightTiled i B = .ok Y ∧
      ∀ p m, m < total B.cols → Y p m = ∑ q ∈ Finset.range (total L.cols), L.toDense i p q * B.toDense q m := by
  unfold Sparse.rightTiled
  rw [if_neg (by rw [ht, h.square]; simp), if_neg (by
    rintro ⟨it, hit, _, hf⟩
    exact hf ⟨ht ▸ (h.range it hit).2, by rw [ht]⟩)]
  refine ⟨_, rfl, fun p m hm => ?_⟩
  rw [← rightDense_spec L h i (fun q m => B.toDense q m) p m]
  unfold Sparse.rightDense
  have step : ∀ it ∈ L.blocks, ∀ Y : R, (if it.1.1 ≠ i then Y
      else (List.range (ntile B.cols)).foldl (fun Y c2 => if inTile L.rows it.1.2.1 p ∧ inTile B.cols c2 m
        then Y + ∑ k ∈ Finset.range (size L.cols it.1.2.2),
          it.2 (p - start L.rows it.1.2.1) k * B.getBlock it.1.2.2 c2 k (m - start B.cols c2)
        else Y) Y)
      = (if it.1.1 ≠ i then Y else if inTile L.rows it.1.2.1 p
      then Y + ∑ k ∈ Finset.range (size L.cols it.1.2.2), it.2 (p - start L.rows it.1.2.1) k * B.toDense (start L.cols it.1.2.2 + k) m
      else Y) := by
    intro it hit Y
    by_cases hi : it.1.1 ≠ i
    · rw [if_pos hi, if_pos hi]
    · rw [if_neg hi, if_neg hi]
      refine loop_tiles B.cols hB.cols m hm _ _ Y _ fun c2 hc2 hin => ?_
      refine Finset.sum_congr rfl fun k hk => ?_
      have hr : it.1.2.2 < ntile B.rows := by rw [ht]; exact (h.range it hit).2
      have hin2 : inTile B.rows it.1.2.2 (start L.cols it.1.2.2 + k) := by
        rw [ht]
        have := Finset.mem_range.1 hk
        unfold size at this
        exact ⟨by omega, by omega⟩
      rw [tiled_dense B hB hr hc2 hin2 hin, ht, Nat.add_sub_cancel_left]
  exact List.foldl_ext _ _ _ fun Y it hit => step it hit Y

/-- **C171**: the product with a tiled matrix from the left: an error exactly if the tiles do not match. -/
theorem leftTiled_spec (L : Sparse R) (h : Ok L) (i : ℕ) (B : Tiled R) (hB : OkT B) :
    (B.cols ≠ L.rows → L.leftTiled i B = .error .value) ∧
    (B.cols = L.rows → ∃ Y, L.leftTiled i B = .ok Y ∧
      ∀ m q, m < total B.rows → Y m q = ∑ p ∈ Finset.range (total L.rows), B.toDense m p * L.toDense i p q) := by
  unfold Sparse.leftTiled
  constructor
  · intro hne
    by_cases ht : total B.cols ≠ total L.rows
    · rw [if_pos ht]
    · rw [if_neg ht, if_pos (Or.inr hne)]
  · intro ht
    rw [if_neg (by rw [ht]; simp), if_neg (by rw [ht]; simp)]
    refine ⟨_, rfl, fun m q hm => ?_⟩
    rw [← leftDense_spec L h i (fun m p => B.toDense m p) m q]
    unfold Sparse.leftDense
    have step : ∀ it ∈ L.blocks, ∀ Y : R, (if it.1.1 ≠ i then Y
        else (List.range (ntile B.rows)).foldl (fun Y r2 => if inTile B.rows r2 m ∧ inTile L.cols it.1.2.2 q
          then Y + ∑ k ∈ Finset.range (size L.rows it.1.2.1),
            B.getBlock r2 it.1.2.1 (m - start B.rows r2) k * it.2 k (q - start L.cols it.1.2.2)
          else Y) Y)
        = (if it.1.1 ≠ i then Y else if inTile L.cols it.1.2.2 q
        then Y + ∑ k ∈ Finset.range (size L.rows it.1.2.1), B.toDense m (start L.rows it.1.2.1 + k) * it.2 k (q - start L.cols it.1.2.2)
        else Y) := by
      intro it hit Y
      by_cases hi : it.1.1 ≠ i
      · rw [if_pos hi, if_pos hi]
      · rw [if_neg hi, if_neg hi]
        simp only [and_comm (a := inTile B.rows _ m)]
        refine loop_tiles B.rows hB.rows m hm _ _ Y _ fun r2 hr2 hin => ?_
        refine Finset.sum_congr rfl fun k hk => ?_
        have hr : it.1.2.1 < ntile B.cols := by rw [ht]; exact (h.range it hit).1
        have hin2 : inTile B.cols it.1.2.1 (start L.rows it.1.2.1 + k) := by
          rw [ht]
          have := Finset.mem_range.1 hk
          unfold size at this
          exact ⟨by omega, by omega⟩
        rw [tiled_dense B hB hr2 hr hin hin2, ht, Nat.add_sub_cancel_left]
    exact List.foldl_ext _ _ _ fun Y it hit => step it hit Y

/-- **C171**: from the right, tiles that do not match can pass without an error and give a wrong product. -/
theorem rightTiled_fails : ∃ (L : Sparse ℚ) (B : Tiled ℚ) (Y : ℕ → ℕ → ℚ), Ok L ∧ OkT B ∧ L.rightTiled 0 B = .ok Y ∧
    Y 0 0 ≠ ∑ q ∈ Finset.range (total L.cols), L.toDense 0 0 q * B.toDense q 0 := by
  obtain ⟨L, hL⟩ : ∃ L : Sparse ℚ, L = ⟨1, [0, 1, 2, 4], [0, 1, 2, 4], 0, [((0, 0, 1), fun _ _ => 1)]⟩ := ⟨_, rfl⟩
  obtain ⟨B, hB⟩ : ∃ B : Tiled ℚ, B = ⟨[0, 2, 3, 4], [0, 1], [((1, 0), fun _ _ => 1)]⟩ := ⟨_, rfl⟩
  have okL : Ok L := by
    subst hL
    exact ⟨by decide, by decide, rfl, by simp, by simp [ntile]⟩
  have okB : OkT B := by
    subst hB
    exact ⟨by decide, by decide, by simp, by simp [ntile]⟩
  have ex : ∃ Y, L.rightTiled 0 B = .ok Y ∧ Y 0 0 = 1 := by
    subst hL hB
    unfold Sparse.rightTiled
    rw [if_neg (by simp [total]), if_neg (by simp [fits, ntile, size, stop, start])]
    refine ⟨_, rfl, ?_⟩
    simp [ntile, inTile, start, stop, size, Tiled.getBlock]
  obtain ⟨Y, h1, h2⟩ := ex
  refine ⟨L, B, Y, okL, okB, h1, ?_⟩
  rw [h2]
  subst hL hB
  simp [total, Finset.sum_range_succ, Sparse.toDense, Tiled.toDense, inTile, start, stop]

theorem mem_fromDense {Nr : ℕ} {a : ℕ → ℕ → ℕ → R} {rows cols : Part} {tol : R} {L : Sparse R}
    (h : Sparse.fromDense Nr a rows cols tol = .ok L) (it : (ℕ × ℕ × ℕ) × Block R) :
    it ∈ L.blocks ↔ it.1.1 < Nr ∧ it.1.2.1 < ntile rows ∧ it.1.2.2 < ntile cols ∧
      it.2 = (fun x y => a it.1.1 (start rows it.1.2.1 + x) (start cols it.1.2.2 + y)) ∧
      ¬ IsZero (size rows it.1.2.1) (size cols it.1.2.2) it.2 tol := by
  unfold Sparse.fromDense at h
  split_ifs at h
  cases h
  simp only [List.mem_flatMap, List.mem_range]
  constructor
  · rintro ⟨i, hi, br, hbr, bc, hbc, hm⟩
    by_cases hz : IsZero (size rows br) (size cols bc) (fun x y => a i (start rows br + x) (start cols bc + y)) tol
    · rw [if_neg (not_not.2 hz)] at hm
      simp at hm
    · rw [if_pos hz, List.mem_singleton] at hm
      subst hm
      exact ⟨hi, hbr, hbc, rfl, hz⟩
  · rintro ⟨h1, h2, h3, h4, h5⟩
    refine ⟨_, h1, _, h2, _, h3, ?_⟩
    rw [← h4, if_pos h5, List.mem_singleton]

/-- **C171**: a tensor made from a dense array is consistent; read back, each element is the one of the array, or zero where the
array has no more than the tolerance.  With tolerance zero it is the array. -/
theorem roundtrip (Nr : ℕ) (a : ℕ → ℕ → ℕ → R) (rows cols : Part) (tol : R) (hr : make rows = .ok rows) (hc : make cols = .ok cols)
    (ht : total rows = total cols) :
    ∃ L, Sparse.fromDense Nr a rows cols tol = .ok L ∧ Ok L ∧ L.rows = rows ∧ L.cols = cols ∧
      (∀ i < Nr, ∀ p < total rows, ∀ q < total cols, L.toDense i p q = a i p q ∨ L.toDense i p q = 0 ∧ |a i p q| ≤ tol) ∧
      (tol = 0 → ∀ i < Nr, ∀ p < total rows, ∀ q < total cols, L.toDense i p q = a i p q) := by
  have vr : Valid rows := by
    by_contra hn
    rw [make, if_neg hn] at hr
    simp at hr
  have vc : Valid cols := by
    by_contra hn
    rw [make, if_neg hn] at hc
    simp at hc
  obtain ⟨L, hL⟩ : ∃ L, Sparse.fromDense Nr a rows cols tol = .ok L := by
    unfold Sparse.fromDense
    rw [if_neg (by simpa using ht)]
    exact ⟨_, rfl⟩
  have hrow : L.rows = rows := by
    unfold Sparse.fromDense at hL
    rw [if_neg (by simpa using ht)] at hL
    cases hL; rfl
  have hcol : L.cols = cols := by
    unfold Sparse.fromDense at hL
    rw [if_neg (by simpa using ht)] at hL
    cases hL; rfl
  have hnd : (L.blocks.map (·.1)).Nodup := by
    unfold Sparse.fromDense at hL
    rw [if_neg (by simpa using ht)] at hL
    cases hL
    simp only [List.map_flatMap]
    have key : ∀ i br bc k, k ∈ ((if ¬ IsZero (size rows br) (size cols bc) (fun x y => a i (start rows br + x) (start cols bc + y)) tol
        then [((i, br, bc), fun x y => a i (start rows br + x) (start cols bc + y))] else []).map
          fun it : (ℕ × ℕ × ℕ) × Block R => it.1) → k = (i, br, bc) := by
      intro i br bc k hk
      split_ifs at hk <;> simp_all
    refine List.nodup_flatMap.2 ⟨fun i _ => List.nodup_flatMap.2 ⟨fun br _ => List.nodup_flatMap.2 ⟨fun bc _ => ?_, ?_⟩, ?_⟩, ?_⟩
    · split_ifs <;> simp
    · refine List.nodup_range.imp fun {x y} hxy k hk hk' => hxy ?_
      have h1 := (key _ _ _ _ hk).symm.trans (key _ _ _ _ hk')
      simpa using h1
    · refine List.nodup_range.imp fun {x y} hxy k hk hk' => hxy ?_
      obtain ⟨_, _, hk⟩ := List.mem_flatMap.1 hk
      obtain ⟨_, _, hk'⟩ := List.mem_flatMap.1 hk'
      have h1 := (key _ _ _ _ hk).symm.trans (key _ _ _ _ hk')
      simp only [Prod.mk.injEq] at h1
      exact h1.2.1
    · refine List.nodup_range.imp fun {x y} hxy k hk hk' => hxy ?_
      obtain ⟨_, _, hk⟩ := List.mem_flatMap.1 hk
      obtain ⟨_, _, hk⟩ := List.mem_flatMap.1 hk
      obtain ⟨_, _, hk'⟩ := List.mem_flatMap.1 hk'
      obtain ⟨_, _, hk'⟩ := List.mem_flatMap.1 hk'
      have h1 := (key _ _ _ _ hk).symm.trans (key _ _ _ _ hk')
      simp only [Prod.mk.injEq] at h1
      exact h1.1
  have ok : Ok L := ⟨hrow ▸ vr, hcol ▸ vc, by rw [hrow, hcol, ht], hnd, fun it hit => by
    have := (mem_fromDense hL it).1 hit
    rw [hrow, hcol]
    exact ⟨this.2.1, this.2.2.1⟩⟩
  have main : ∀ i < Nr, ∀ p < total rows, ∀ q < total cols, L.toDense i p q = a i p q ∨ L.toDense i p q = 0 ∧ |a i p q| ≤ tol := by
    intro i hi p hp q hq
    obtain ⟨br, hbr, hip⟩ := tile_exists vr hp
    obtain ⟨bc, hbc, hiq⟩ := tile_exists vc hq
    have hp' : start rows br + (p - start rows br) = p := by unfold inTile at hip; omega
    have hq' : start cols bc + (q - start cols bc) = q := by unfold inTile at hiq; omega
    rw [dense_sum L ok, hrow, hcol]
    have uni : ∀ it ∈ L.blocks, (it.1.1 = i ∧ inTile rows it.1.2.1 p ∧ inTile cols it.1.2.2 q) → it.1 = (i, br, bc) := by
      intro it hit hh
      have := (mem_fromDense hL it).1 hit
      exact Prod.ext hh.1 (Prod.ext (tile_unique vr this.2.1 hbr hh.2.1 hip) (tile_unique vc this.2.2.1 hbc hh.2.2 hiq))
    by_cases hz : IsZero (size rows br) (size cols bc) (fun x y => a i (start rows br + x) (start cols bc + y)) tol
    · right
      constructor
      · have : (L.blocks.map fun it => if it.1.1 = i ∧ inTile rows it.1.2.1 p ∧ inTile cols it.1.2.2 q
            then it.2 (p - start rows it.1.2.1) (q - start cols it.1.2.2) else 0) = L.blocks.map fun _ => (0 : R) := by
          refine List.map_congr_left fun it hit => if_neg fun hh => ?_
          have h1 := uni it hit hh
          have h2 := (mem_fromDense hL it).1 hit
          rw [h2.2.2.2.1, h1] at h2
          exact h2.2.2.2.2 hz
        rw [this]
        simp
      · have := hz (p - start rows br) (by unfold inTile at hip; unfold size; omega) (q - start cols bc)
          (by unfold inTile at hiq; unfold size; omega)
        simp only [hp', hq'] at this
        exact this
    · left
      obtain ⟨it, hit⟩ : ∃ it : (ℕ × ℕ × ℕ) × Block R, it = ((i, br, bc), fun x y => a i (start rows br + x) (start cols bc + y)) := ⟨_, rfl⟩
      have hmem : it ∈ L.blocks := (mem_fromDense hL it).2 (by subst hit; exact ⟨hi, hbr, hbc, rfl, hz⟩)
      rw [list_single L.blocks (List.Nodup.of_map _ hnd) it hmem]
      · subst hit
        rw [if_pos ⟨rfl, hip, hiq⟩]
        simp only [hp', hq']
      · intro b hb hne
        refine if_neg fun hh => hne ?_
        have h1 := uni b hb hh
        have h2 := (mem_fromDense hL b).1 hb
        refine Prod.ext (by rw [h1, hit]) ?_
        rw [h2.2.2.2.1, h1, hit]
  refine ⟨L, hL, ok, hrow, hcol, main, fun h0 i hi p hp q hq => ?_⟩
  rcases main i hi p hp q hq with h | ⟨h1, h2⟩
  · exact h
  · rw [h0] at h2
    rw [h1, abs_nonpos_iff.1 h2]

/-- **C171**: a tiled matrix made from a dense one, read back, is the dense one. -/
theorem tiled_roundtrip (M : ℕ → ℕ → R) (rows cols : Part) (hr : Valid rows) (hc : Valid cols) :
    OkT (Tiled.fromDense M rows cols) ∧
      ∀ p < total rows, ∀ q < total cols, (Tiled.fromDense M rows cols).toDense p q = M p q := by
  have mem : ∀ it, it ∈ (Tiled.fromDense M rows cols).blocks ↔ it.1.1 < ntile rows ∧ it.1.2 < ntile cols ∧
      it.2 = fun x y => M (start rows it.1.1 + x) (start cols it.1.2 + y) := by
    intro it
    unfold Tiled.fromDense
    simp only [List.mem_flatMap, List.mem_map, List.mem_range]
    constructor
    · rintro ⟨br, h1, bc, h2, rfl⟩
      exact ⟨h1, h2, rfl⟩
    · rintro ⟨h1, h2, h3⟩
      exact ⟨_, h1, _, h2, by rw [← h3]⟩
  have nd : ((Tiled.fromDense M rows cols).blocks.map (·.1)).Nodup := by
    unfold Tiled.fromDense
    simp only [List.map_flatMap, List.map_map]
    refine List.nodup_flatMap.2 ⟨fun br _ => List.nodup_range.map fun x y hxy => by simpa using hxy, ?_⟩
    refine List.nodup_range.imp fun {x y} hxy k hk hk' => hxy ?_
    obtain ⟨_, _, h1⟩ := List.mem_map.1 hk
    obtain ⟨_, _, h2⟩ := List.mem_map.1 hk'
    have h3 := h1.trans h2.symm
    simp only [Function.comp, Prod.mk.injEq] at h3
    exact h3.1
  have ok : OkT (Tiled.fromDense M rows cols) := ⟨hr, hc, nd, fun it hit => ⟨((mem it).1 hit).1, ((mem it).1 hit).2.1⟩⟩
  refine ⟨ok, fun p hp q hq => ?_⟩
  obtain ⟨br, hbr, hip⟩ := tile_exists hr hp
  obtain ⟨bc, hbc, hiq⟩ := tile_exists hc hq
  have hp' : start rows br + (p - start rows br) = p := by unfold inTile at hip; omega
  have hq' : start cols bc + (q - start cols bc) = q := by unfold inTile at hiq; omega
  rw [tiled_dense _ ok (br := br) (bc := bc) hbr hbc hip hiq]
  unfold Tiled.getBlock
  cases hf : (Tiled.fromDense M rows cols).blocks.find? (·.1 = (br, bc)) with
  | none =>
    rw [List.find?_eq_none] at hf
    have h1 := hf ((br, bc), fun x y => M (start rows br + x) (start cols bc + y)) ((mem _).2 ⟨hbr, hbc, rfl⟩)
    simp at h1
  | some it =>
    have h1 := (mem it).1 (List.mem_of_find?_eq_some hf)
    have h2 : it.1 = (br, bc) := by simpa using List.find?_some hf
    change it.2 (p - start rows br) (q - start cols bc) = M p q
    rw [h1.2.2, h2]
    simp only [hp', hq']

/-- **C171**: a block that is not negligible, or declared so, replaces what was there; the other blocks stay. -/
theorem add_partial (L : Sparse R) (i br bc : ℕ) (hi : i < L.Nr) (hb : br < ntile L.rows ∧ bc < ntile L.cols) (b : Block R) (assume : Bool)
    (h : assume = true ∨ ¬ IsZero (size L.rows br) (size L.cols bc) b L.tol) :
    ∃ L', L.addBlock i br bc b assume = .ok L' ∧ L'.getBlock i br bc = b ∧
      ∀ j r c, (j, r, c) ≠ (i, br, bc) → L'.getBlock j r c = L.getBlock j r c := by
  unfold Sparse.addBlock
  rw [if_neg (by simpa using hi), if_neg (by simpa using hb), if_pos h]
  refine ⟨_, rfl, ?_, ?_⟩
  · unfold Sparse.getBlock
    dsimp only
    have : (put L.blocks (i, br, bc) b).find? (·.1 = (i, br, bc)) = some ((i, br, bc), b) := by
      generalize (i, br, bc) = k
      generalize L.blocks = l
      unfold put
      by_cases ha : l.any (·.1 = k) = true
      · rw [if_pos ha]
        induction l with
        | nil => simp at ha
        | cons x l ih =>
          rw [List.map_cons]
          by_cases hx : x.1 = k
          · rw [if_pos hx, List.find?_cons_of_pos (by simp)]
          · rw [if_neg hx, List.find?_cons_of_neg (by simpa using hx)]
            refine ih ?_
            simpa [hx] using ha
      · rw [if_neg ha, List.find?_append]
        have : l.find? (·.1 = k) = none := by
          rw [List.find?_eq_none]
          intro x hx hk
          exact ha (List.any_eq_true.2 ⟨x, hx, hk⟩)
        rw [this]
        simp
    rw [this]
    rfl
  · intro j r c hne
    unfold Sparse.getBlock
    dsimp only
    have : ((put L.blocks (i, br, bc) b).find? (·.1 = (j, r, c))) = L.blocks.find? (·.1 = (j, r, c)) := by
      generalize (i, br, bc) = k at *
      generalize (j, r, c) = k' at *
      generalize L.blocks = l
      unfold put
      by_cases ha : l.any (·.1 = k) = true
      · rw [if_pos ha]
        clear ha
        induction l with
        | nil => rfl
        | cons x l ih =>
          rw [List.map_cons]
          by_cases hx : x.1 = k
          · rw [if_pos hx, List.find?_cons_of_neg (by simpa using hne.symm), List.find?_cons_of_neg (by simpa [hx] using hne.symm), ih]
          · rw [if_neg hx]
            by_cases hx' : x.1 = k'
            · rw [List.find?_cons_of_pos (by simpa using hx'), List.find?_cons_of_pos (by simpa using hx')]
            · rw [List.find?_cons_of_neg (by simpa using hx'), List.find?_cons_of_neg (by simpa using hx'), ih]
      · rw [if_neg ha, List.find?_append, List.find?_cons_of_neg (by simpa using hne.symm)]
        simp
    rw [this]

/-- **C171**: a block is refused exactly if its slice or tile does not exist. -/
theorem add_refused (L : Sparse R) (i br bc : ℕ) (b : Block R) (assume : Bool) :
    L.addBlock i br bc b assume = .error .index ↔ ¬(i < L.Nr ∧ br < ntile L.rows ∧ bc < ntile L.cols) := by
  unfold Sparse.addBlock
  by_cases h1 : i < L.Nr
  · rw [if_neg (not_not.2 h1)]
    by_cases h2 : br < ntile L.rows ∧ bc < ntile L.cols
    · rw [if_neg (not_not.2 h2)]
      split_ifs <;> simp [h1, h2]
    · rw [if_pos h2]
      simp only [true_iff]
      exact fun h => h2 h.2
  · rw [if_pos h1]
    simp [h1]

/-- **C171**: a zero block cannot be put in the place of another one: the old block stays, without an error. -/
theorem add_fails (L : Sparse R) (i br bc : ℕ) (hi : i < L.Nr) (hb : br < ntile L.rows ∧ bc < ntile L.cols) (ht : 0 ≤ L.tol) :
    ∃ L', L.addBlock i br bc (fun _ _ => 0) false = .ok L' ∧ L'.getBlock i br bc = L.getBlock i br bc := by
  unfold Sparse.addBlock
  rw [if_neg (by simpa using hi), if_neg (by simpa using hb), if_neg (by simp [IsZero, ht])]
  exact ⟨L, rfl, rfl⟩

/-- **C171**: pruning changes no element by more than the tolerance. -/
theorem prune_spec (L : Sparse R) (h : Ok L) (ht : 0 ≤ L.tol) (i p q : ℕ) :
    Ok L.prune ∧ |L.prune.toDense i p q - L.toDense i p q| ≤ L.tol := by
  have ok : Ok L.prune := ⟨h.rows, h.cols, h.square, List.Nodup.sublist (List.Sublist.map _ List.filter_sublist) h.keys,
    fun it hit => h.range it (List.mem_filter.1 hit).1⟩
  refine ⟨ok, ?_⟩
  rw [dense_sum L h, dense_sum _ ok]
  unfold Sparse.prune
  dsimp only
  have uni : ∀ a ∈ L.blocks, ∀ b ∈ L.blocks, (a.1.1 = i ∧ inTile L.rows a.1.2.1 p ∧ inTile L.cols a.1.2.2 q) →
      (b.1.1 = i ∧ inTile L.rows b.1.2.1 p ∧ inTile L.cols b.1.2.2 q) → a.1 = b.1 := fun a ha b hb h1 h2 =>
    Prod.ext (h1.1.trans h2.1.symm) (Prod.ext (tile_unique h.rows (h.range a ha).1 (h.range b hb).1 h1.2.1 h2.2.1)
      (tile_unique h.cols (h.range a ha).2 (h.range b hb).2 h1.2.2 h2.2.2))
  have hk := h.keys
  revert uni hk
  generalize L.blocks = l
  intro uni hk
  induction l with
  | nil => simpa using ht
  | cons x l ih =>
    rw [List.map_cons, List.nodup_cons] at hk
    have ih' := ih (fun a ha b hb => uni a (by simp [ha]) b (by simp [hb])) hk.2
    by_cases hz : IsZero (size L.rows x.1.2.1) (size L.cols x.1.2.2) x.2 L.tol
    · rw [List.filter_cons_of_neg (by simpa using hz), List.map_cons, List.sum_cons]
      by_cases hx : x.1.1 = i ∧ inTile L.rows x.1.2.1 p ∧ inTile L.cols x.1.2.2 q
      · have zero : ∀ l' : List ((ℕ × ℕ × ℕ) × Block R), (∀ it ∈ l', it ∈ l) →
            (l'.map fun it => if it.1.1 = i ∧ inTile L.rows it.1.2.1 p ∧ inTile L.cols it.1.2.2 q
              then it.2 (p - start L.rows it.1.2.1) (q - start L.cols it.1.2.2) else 0).sum = 0 := by
          intro l' hl'
          have : (l'.map fun it => if it.1.1 = i ∧ inTile L.rows it.1.2.1 p ∧ inTile L.cols it.1.2.2 q
              then it.2 (p - start L.rows it.1.2.1) (q - start L.cols it.1.2.2) else 0) = l'.map fun _ => (0 : R) := by
            refine List.map_congr_left fun it hit => if_neg fun hh => hk.1 ?_
            rw [uni x (by simp) it (by simp [hl' it hit]) hx hh]
            exact List.mem_map.2 ⟨it, hl' it hit, rfl⟩
          rw [this]; simp
        rw [zero _ fun it hit => (List.mem_filter.1 hit).1, zero l fun it hit => hit, if_pos hx, add_zero, zero_sub, abs_neg]
        unfold inTile at hx
        exact hz _ (by unfold size; omega) _ (by unfold size; omega)
      · rw [if_neg hx, zero_add]
        exact ih'
    · rw [List.filter_cons_of_pos (by simpa using hz), List.map_cons, List.map_cons, List.sum_cons, List.sum_cons, add_sub_add_left_eq_sub]
      exact ih'

/-- **C171**: pruning keeps exactly the blocks with an element above the tolerance. -/
theorem prune_blocks (L : Sparse R) (it : (ℕ × ℕ × ℕ) × Block R) : it ∈ L.prune.blocks ↔
    it ∈ L.blocks ∧ ∃ x < size L.rows it.1.2.1, ∃ y < size L.cols it.1.2.2, L.tol < |it.2 x y| := by
  unfold Sparse.prune
  dsimp only
  rw [List.mem_filter, decide_eq_true_iff]
  refine and_congr_right fun _ => ?_
  unfold IsZero
  push Not
  rfl

example : uniform 5 2 = .ok [0, 2, 4, 5] := by decide

example : ∃ L, Sparse.fromDense 1 (fun _ p q => if p = q then (1 : ℚ) else 0) [0, 2, 4, 5] [0, 2, 4, 5] 0 = .ok L ∧ Ok L ∧ L.toDense 0 3 3 = 1 := by
  obtain ⟨L, h1, h2, _, _, _, h3⟩ := roundtrip 1 (fun _ p q => if p = q then (1 : ℚ) else 0) [0, 2, 4, 5] [0, 2, 4, 5] 0 (by decide) (by decide) rfl
  exact ⟨L, h1, h2, by rw [h3 rfl 0 (by norm_num) 3 (by decide) 3 (by decide)]; simp⟩

end OpenMS.PyTiles
