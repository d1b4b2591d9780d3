import Verif.Model.Ccsd
import Verif.Props.Packing
import Mathlib.Tactic

/-!
# C50-C52: the QED coupled cluster driver
-/

namespace OpenMS.Ccsd
set_option linter.unusedSectionVars false

/-! ## C50: amplitude vectors -/

section Vectors
variable {K : Type*} [Field K]

theorem prefix_length (A : Amps K) (b : List K) :
    (A.T1 ++ Boson.packSymmetric A.T2 A.nov ++ b).length =
      A.nov + A.nov * (A.nov + 1) / 2 + b.length := by
  simp [Amps.nov, (Boson.pack_entries A.T2 A.T1.length).1, Nat.add_assoc]

/-- C50: what the vector contains: the singles, the doubles of each unordered couple of pairs at its
place in the packed triangle, then all bosonic amplitudes and nothing else. -/
theorem vector_contents (addU2n : Bool) (A : Amps K) :
    let v := amplitudes2vector addU2n A
    let n := A.T1.length
    (∀ i < n, v[i]? = A.T1[i]?) ∧
    (∀ p < n, ∀ q ≤ p, v[n + (p * (p + 1) / 2 + q)]? = some (A.T2 p q)) ∧
    v.drop (n + n * (n + 1) / 2) = (A.Sn.getD []).flatten ++ (A.U1n.getD []).flatten ++
      (if addU2n then (A.U2n.getD []).flatten else []) := by
  intro v n
  have hl := (Boson.pack_entries A.T2 n).1
  refine ⟨fun i hi => ?_, fun p hp q hq => ?_, ?_⟩
  · simp only [v, amplitudes2vector, List.append_assoc]
    rw [List.getElem?_append_left hi]
  · have he := (Boson.pack_entries A.T2 n).2 p q hq hp
    have hi : Boson.packedIndex p q = p * (p + 1) / 2 + q := by
      unfold Boson.packedIndex
      grind
    rw [hi] at he
    simp only [v, amplitudes2vector, List.append_assoc]
    rw [List.getElem?_append_right (by simp [n]), Nat.add_sub_cancel_left]
    rw [List.getElem?_append_left]
    · exact he
    · by_contra hc
      have hc' : (Boson.packSymmetric A.T2 n).length ≤ p * (p + 1) / 2 + q := not_lt.1 hc
      rw [List.getElem?_eq_none hc'] at he
      cases he
  · have : (A.T1 ++ Boson.packSymmetric A.T2 A.nov).length = n + n * (n + 1) / 2 := by
      rw [List.length_append]
      exact congrArg _ hl
    simp only [v, amplitudes2vector]
    rw [← this, List.drop_left]
    rfl

/-- C50 partial: joining amplitudes and splitting the vector again gives the amplitudes back (the
doubles being symmetric under exchange of the two pairs).  Missing: splitting a vector and joining
again, which is what an accelerator needs; it is false for the bosonic amplitudes. -/
theorem split_join_partial (addU2n : Bool) (A : Amps K) (hT2 : ∀ p q, A.T2 p q = A.T2 q p) :
    let B := vector2amplitudes (amplitudes2vector addU2n A) A
    B.T1 = A.T1 ∧ (∀ p < A.nov, ∀ q < A.nov, B.T2 p q = A.T2 p q) ∧
      B.Sn = A.Sn ∧ B.U1n = A.U1n ∧ B.U2n = A.U2n := by
  have h1 : (amplitudes2vector addU2n A).take A.nov = A.T1 := by
    simp [amplitudes2vector, Amps.nov, List.append_assoc]
  have h2 : ((amplitudes2vector addU2n A).drop A.nov).take (A.nov * (A.nov + 1) / 2) =
      Boson.packSymmetric A.T2 A.nov := by
    have : (amplitudes2vector addU2n A).drop A.nov =
        Boson.packSymmetric A.T2 A.nov ++ bosonPart addU2n A := by
      simp [amplitudes2vector, Amps.nov, List.append_assoc]
    rw [this, ← (Boson.pack_entries A.T2 A.nov).1]
    simp
  refine ⟨h1, fun p hp q hq => ?_, rfl, rfl, rfl⟩
  simp only [vector2amplitudes]
  rw [h2]
  exact Boson.unpack_pack A.T2 hT2 A.nov p q hp hq

/-- C50: what splitting and joining really does: the electronic part of the vector is kept, the
bosonic part is replaced by the amplitudes from before the call. -/
theorem join_split (addU2n : Bool) (A : Amps K) (v : List K)
    (hv : v.length = (amplitudes2vector addU2n A).length) :
    amplitudes2vector addU2n (vector2amplitudes v A) =
      v.take (A.nov + A.nov * (A.nov + 1) / 2) ++ bosonPart addU2n A := by
  have hl : v.length = A.nov + A.nov * (A.nov + 1) / 2 + (bosonPart addU2n A).length := by
    rw [hv, amplitudes2vector, prefix_length]
  have hn : (vector2amplitudes v A).nov = A.nov := by
    simp only [vector2amplitudes]
    show (v.take A.nov).length = A.nov
    rw [List.length_take]
    omega
  have hb : bosonPart addU2n (vector2amplitudes v A) = bosonPart addU2n A := rfl
  rw [amplitudes2vector, hb, hn]
  congr 1
  have hp : Boson.packSymmetric (vector2amplitudes v A).T2 A.nov =
      (v.drop A.nov).take (A.nov * (A.nov + 1) / 2) := by
    refine Boson.pack_unpack _ _ ?_
    rw [List.length_take, List.length_drop]
    omega
  rw [hp]
  show v.take A.nov ++ _ = _
  rw [List.take_add]

/-- C50: without bosonic amplitudes every vector round-trips. -/
theorem join_split_electronic_partial (addU2n : Bool) (A : Amps K) (v : List K)
    (hA : bosonPart addU2n A = []) (hv : v.length = (amplitudes2vector addU2n A).length) :
    amplitudes2vector addU2n (vector2amplitudes v A) = v := by
  rw [join_split addU2n A v hv, hA, List.append_nil, List.take_of_length_le]
  rw [hv, amplitudes2vector, prefix_length, hA]
  simp

/-- C50 fails: whenever there is a bosonic amplitude, some vector of the right length does not
round-trip. -/
theorem join_split_fails (addU2n : Bool) (A : Amps K) (hA : bosonPart addU2n A ≠ []) :
    ∃ v : List K, v.length = (amplitudes2vector addU2n A).length ∧
      amplitudes2vector addU2n (vector2amplitudes v A) ≠ v := by
  set v := A.T1 ++ Boson.packSymmetric A.T2 A.nov ++ (bosonPart addU2n A).map (· + 1) with hvdef
  have hv : v.length = (amplitudes2vector addU2n A).length := by
    rw [hvdef, amplitudes2vector, prefix_length, prefix_length, List.length_map]
  refine ⟨v, hv, ?_⟩
  rw [join_split addU2n A v hv]
  have htake : v.take (A.nov + A.nov * (A.nov + 1) / 2) = A.T1 ++ Boson.packSymmetric A.T2 A.nov := by
    have : (A.T1 ++ Boson.packSymmetric A.T2 A.nov).length = A.nov + A.nov * (A.nov + 1) / 2 := by
      simpa using prefix_length A []
    rw [hvdef, ← this]
    exact List.take_left
  rw [htake, hvdef]
  intro h
  have h2 := List.append_cancel_left h
  obtain ⟨b, l, hb⟩ := List.exists_cons_of_ne_nil hA
  rw [hb] at h2
  simp at h2

/-- C50 fails in use: whatever the accelerator proposes, the bosonic amplitudes are not
accelerated. -/
theorem diis_ignores_bosons_fails (addU2n active : Bool) (update : List K → List K) (A : Amps K) :
    (runDiis addU2n active update A).Sn = A.Sn ∧ (runDiis addU2n active update A).U1n = A.U1n ∧
      (runDiis addU2n active update A).U2n = A.U2n := by
  unfold runDiis
  split_ifs <;> exact ⟨rfl, rfl, rfl⟩

/-- C50: the electronic amplitudes are accelerated: when acceleration is on they are read off the
vector the accelerator returns, otherwise nothing changes. -/
theorem diis_electronic (addU2n : Bool) (update : List K → List K) (A : Amps K) :
    runDiis addU2n false update A = A ∧
    ∀ u, update (amplitudes2vector addU2n A) = u → u.length = (amplitudes2vector addU2n A).length →
      let B := runDiis addU2n true update A
      let n := A.T1.length
      B.T1 = u.take n ∧ ∀ p < n, ∀ q ≤ p,
        u[n + (p * (p + 1) / 2 + q)]? = some (B.T2 p q) ∧ B.T2 q p = B.T2 p q := by
  refine ⟨rfl, ?_⟩
  intro u hu hl B n
  have hB : B = vector2amplitudes u A := by simp only [B, runDiis, hu, if_true]
  have hl' : u.length = n + n * (n + 1) / 2 + (bosonPart addU2n A).length := by
    rw [hl, amplitudes2vector, prefix_length]
    rfl
  refine ⟨by rw [hB]; rfl, fun p hp q hq => ?_⟩
  have hT : B.T2 = Boson.unpackSymmetric ((u.drop n).take (n * (n + 1) / 2)) n 1 := by
    rw [hB]
    rfl
  have hi : Boson.packedIndex p q = p * (p + 1) / 2 + q := by
    unfold Boson.packedIndex
    grind
  have hi' : Boson.packedIndex q p = p * (p + 1) / 2 + q := by
    unfold Boson.packedIndex
    grind
  have hlt : p * (p + 1) / 2 + q < n * (n + 1) / 2 := by
    have h1 : (p + 1) * (p + 2) / 2 = p * (p + 1) / 2 + (p + 1) := by
      rw [show (p + 1) * (p + 2) = p * (p + 1) + (p + 1) * 2 by ring, Nat.add_mul_div_right _ _ (by norm_num)]
    have h2 : (p + 1) * (p + 2) / 2 ≤ n * (n + 1) / 2 :=
      Nat.div_le_div_right (Nat.mul_le_mul (by omega) (by omega))
    omega
  have e1 := Boson.unpack_spec ((u.drop n).take (n * (n + 1) / 2)) 1 n p q
  have e2 := Boson.unpack_spec ((u.drop n).take (n * (n + 1) / 2)) 1 n q p
  rw [if_pos ⟨hp, by omega⟩, hi, div_one, ite_self] at e1
  rw [if_pos ⟨by omega, hp⟩, hi', div_one, ite_self] at e2
  rw [hT, e1, e2]
  refine ⟨?_, rfl⟩
  rw [List.getD_eq_getElem?_getD, List.getElem?_take_of_lt hlt, List.getElem?_drop]
  have : n + (p * (p + 1) / 2 + q) < u.length := by omega
  rw [List.getElem?_eq_getElem this]
  rfl

/-- Two singles, symmetric doubles and one boson amplitude of each kind. -/
example : let A : Amps ℚ := ⟨[1, 2], fun p q => p + q, some [[3]], some [[4, 5]], none⟩
    (∀ p q, A.T2 p q = A.T2 q p) ∧ bosonPart true A = [3, 4, 5] ∧
      amplitudes2vector true A = [1, 2, 0, 1, 2, 3, 4, 5] := by
  refine ⟨fun p q => add_comm _ _, by simp [bosonPart, flat], ?_⟩
  norm_num [amplitudes2vector, Boson.packSymmetric, Amps.nov, bosonPart, flat, List.range_succ]

end Vectors

/-! ## C51: asking for amplitudes -/

/-- C51 partial: the module-level `kernel` honours its own `ret`, and without `ret` the class
method returns just the energies; both return the mean-field plus the correlation energy and the
correlation energy.  Missing: `ret=True` through the class, which is false. -/
theorem ret_module_partial {E α : Type*} [Add E] (eris t1 t2 Sn Un theory t1' t2' Sn' Un' eris' : Val)
    (b : Bool) (ehf eold : E) (amps : α) :
    (moduleKernel [eris, t1, t2, Sn, Un, theory, .bool b] ehf eold amps).amps =
        (if b then some amps else none) ∧
    (ccsdKernel t1' t2' Sn' Un' eris' (.bool false) ehf eold amps).amps = none ∧
    (∀ r, r = moduleKernel [eris, t1, t2, Sn, Un, theory, .bool b] ehf eold amps ∨
        r = ccsdKernel t1' t2' Sn' Un' eris' (.bool b) ehf eold amps →
      r.etot = ehf + eold ∧ r.ecorr = eold) := by
  refine ⟨?_, ?_, ?_⟩
  rotate_left 2
  · rintro r (rfl | rfl) <;> cases b <;>
      simp [moduleKernel, ccsdKernel, bindArgs, kernelParams, getArg, Val.truthy, List.lookup]
  all_goals cases b <;> simp [moduleKernel, ccsdKernel, bindArgs, kernelParams, getArg, Val.truthy, List.lookup]

/-- C51 fails: `CCSD.kernel(ret=True)` never returns the amplitudes, whatever the other arguments. -/
theorem ret_class_fails {E α : Type*} [Add E] (t1 t2 Sn Un eris : Val) (ehf eold : E) (amps : α) :
    (ccsdKernel t1 t2 Sn Un eris (.bool true) ehf eold amps).amps = none := by
  simp [moduleKernel, ccsdKernel, bindArgs, kernelParams, getArg, Val.truthy, List.lookup]

/-- C51 fails: initial amplitudes given to the class arrive as other parameters: `t1` as integrals,
`t2` as `t1`, the boson amplitudes as `t2`, and `ret` as the name of the theory. -/
theorem arguments_shifted_fails (t1 t2 Sn Un eris ret : Val) :
    let env := bindArgs kernelParams [t1, t2, Sn, Un, eris, ret]
    getArg env "eris" = t1 ∧ getArg env "t1" = t2 ∧ getArg env "t2" = Sn ∧ getArg env "Sn" = Un ∧
      getArg env "Un" = eris ∧ getArg env "theory" = ret ∧ getArg env "ret" = .bool false := by
  simp [bindArgs, kernelParams, getArg, List.lookup]

/-! ## C52: denominators -/

/-- An index within a shape. -/
def Valid (idx sh : List ℕ) : Prop := List.Forall₂ (· < ·) idx sh

theorem clip_valid {idx sh : List ℕ} (h : Valid idx sh) : clip sh idx = idx := by
  induction h with
  | nil => rfl
  | cons h _ ih =>
    simp only [clip, ih]
    split_ifs with hs
    · subst hs
      congr 1
      omega
    · rfl

theorem bshape_ones (sh : List ℕ) : bshape sh (List.replicate sh.length 1) = some sh := by
  induction sh with
  | nil => rfl
  | cons a s ih => simp [bshape, List.replicate_succ, ih]

theorem bshape_append (a b c d : List ℕ) (h : a.length = b.length) (r s : List ℕ)
    (h1 : bshape a b = some r) (h2 : bshape c d = some s) : bshape (a ++ c) (b ++ d) = some (r ++ s) := by
  induction a generalizing b r with
  | nil =>
    have : b = [] := by simpa using h.symm
    subst this
    simp only [bshape, Option.some_inj] at h1
    subst h1
    simpa using h2
  | cons x a ih =>
    cases b with
    | nil => simp at h
    | cons y b =>
      simp only [bshape, List.cons_append] at h1 ⊢
      split_ifs at h1 ⊢ with hc hc'
      · obtain ⟨r', hr', rfl⟩ := Option.map_eq_some_iff.1 h1
        rw [ih b (by simpa using h) r' hr']
        rfl
      · obtain ⟨r', hr', rfl⟩ := Option.map_eq_some_iff.1 h1
        rw [ih b (by simpa using h) r' hr']
        rfl

theorem clip_append (a b i j : List ℕ) (h : a.length = i.length) :
    clip (a ++ b) (i ++ j) = clip a i ++ clip b j := by
  induction a generalizing i with
  | nil =>
    have : i = [] := by simpa using h.symm
    subst this
    rfl
  | cons x a ih =>
    cases i with
    | nil => simp at h
    | cons y i =>
      simp only [List.cons_append, clip]
      rw [ih i (by simpa using h)]

theorem clip_length (a i : List ℕ) (h : a.length = i.length) : (clip a i).length = i.length := by
  induction a generalizing i with
  | nil =>
    have : i = [] := by simpa using h.symm
    subst this
    rfl
  | cons x a ih =>
    cases i with
    | nil => simp at h
    | cons y i => simp [clip, ih i (by simpa using h)]

/-- C52: the denominators of the pure boson amplitudes are `-(ω_{I1} + ... + ω_{Ik})`, for every
number of modes and every order. -/
theorem dsn_correct (m : ℕ) (w : ℕ → ℝ) (i : ℕ) :
    ∃ D, dsn m w i = some D ∧ D.shape = List.replicate (i + 1) m ∧
      ∀ idx, Valid idx D.shape → D.val idx = -(idx.map w).sum := by
  induction i with
  | zero =>
    refine ⟨_, rfl, rfl, fun idx h => ?_⟩
    obtain ⟨a, rfl⟩ : ∃ a, idx = [a] := by
      have := h.length_eq
      simpa [List.length_eq_one_iff] using this
    simp
  | succ i ih =>
    obtain ⟨D, hD, hs, hv⟩ := ih
    have hb : bshape (D.shape ++ [1]) (List.replicate (i + 1) 1 ++ [m]) =
        some (List.replicate (i + 1 + 1) m) := by
      rw [List.replicate_succ' (n := i + 1)]
      refine bshape_append _ _ _ _ (by simp [hs]) _ _ ?_ ?_
      · rw [hs]
        have := bshape_ones (List.replicate (i + 1) m)
        simpa using this
      · simp only [bshape]
        split_ifs with h
        · simp only [Option.map_some, Option.some_inj]
          rcases h with h | h
          · simp [h]
          · simp [h]
        · rfl
    refine ⟨⟨List.replicate (i + 1 + 1) m, fun idx => D.val (clip (D.shape ++ [1]) idx).dropLast -
        w ((clip (List.replicate (i + 1) 1 ++ [m]) idx).getD (i + 1) 0)⟩, by
      simp only [dsn, hD, Option.bind_some, bsub, appendAxis, expandW, hb, Option.map_some], rfl, ?_⟩
    intro idx hidx
    simp only at hidx ⊢
    -- split off the last index
    have hlen : idx.length = i + 2 := by simpa using hidx.length_eq
    obtain ⟨js, a, rfl⟩ : ∃ js a, idx = js ++ [a] :=
      ⟨idx.dropLast, idx.getLast (by rintro rfl; simp at hlen), (List.dropLast_append_getLast _).symm⟩
    have hjs : js.length = i + 1 := by simpa using hlen
    rw [List.replicate_succ'] at hidx
    have hval : Valid js (List.replicate (i + 1) m) ∧ a < m := by
      have h1 := List.forall₂_iff_get.1 hidx
      refine ⟨List.forall₂_iff_get.2 ⟨by simp [hjs], fun k h1' h2' => ?_⟩, ?_⟩
      · have := h1.2 k (by simp; omega) (by simp; omega)
        simpa [List.getElem_append, h1', hjs, show k < i + 1 by omega] using this
      · have := h1.2 (i + 1) (by simp [hjs]) (by simp)
        simpa [List.getElem_append, hjs] using this
    have hc1 : clip (D.shape ++ [1]) (js ++ [a]) = js ++ [0] := by
      rw [clip_append _ _ _ _ (by simp [hs, hjs]), hs, clip_valid hval.1]
      simp [clip]
    have hc2 : (clip (List.replicate (i + 1) 1 ++ [m]) (js ++ [a])).getD (i + 1) 0 = a := by
      rw [clip_append _ _ _ _ (by simp [hjs])]
      have hl : (clip (List.replicate (i + 1) 1) js).length = i + 1 := by
        rw [clip_length _ _ (by simp [hjs]), hjs]
      rw [List.getD_append_right _ _ _ _ (by omega), hl]
      have : a < m := hval.2
      by_cases hm1 : m = 1
      · simp [clip, hm1]; omega
      · simp [clip, hm1]
    rw [hc1, hc2, List.dropLast_concat, hv js (by rw [hs]; exact hval.1)]
    simp
    ring

/-- The mixed singles denominators C52 asks for: order `i + 1`, modes `I`, virtual `a`, occupied `j`. -/
def D1Correct (m nv no : ℕ) (eo ev w : ℕ → ℝ) (i : ℕ) : Prop :=
  ∃ D, d1p m nv no eo ev w i = some D ∧ D.shape = List.replicate (i + 1) m ++ [nv, no] ∧
    ∀ I a j, I.length = i + 1 → (∀ x ∈ I, x < m) → a < nv → j < no →
      D.val (I ++ [a, j]) = eo j - ev a - (I.map w).sum

/-- The mixed doubles denominators. -/
def D2Correct (m nv no : ℕ) (eo ev w : ℕ → ℝ) (i : ℕ) : Prop :=
  ∃ D, d2p m nv no eo ev w i = some D ∧ D.shape = List.replicate (i + 1) m ++ [nv, nv, no, no] ∧
    ∀ I a b j k, I.length = i + 1 → (∀ x ∈ I, x < m) → a < nv → b < nv → j < no → k < no →
      D.val (I ++ [a, b, j, k]) = eo j + eo k - ev a - ev b - (I.map w).sum

/-- C52: the first-order mixed denominators are right for every number of modes. -/
theorem first_order_correct (m nv no : ℕ) (eo ev w : ℕ → ℝ) :
    D1Correct m nv no eo ev w 0 ∧ D2Correct m nv no eo ev w 0 := by
  refine ⟨⟨_, rfl, rfl, fun I a j hI _ _ _ => ?_⟩, ⟨_, rfl, rfl, fun I a b j k hI _ _ _ _ _ => ?_⟩⟩
  · obtain ⟨x, rfl⟩ := List.length_eq_one_iff.1 hI
    simp
  · obtain ⟨x, rfl⟩ := List.length_eq_one_iff.1 hI
    simp
    ring

theorem clip_replicate_one (k : ℕ) (idx : List ℕ) (h : idx.length = k) :
    clip (List.replicate k 1) idx = List.replicate k 0 := by
  induction k generalizing idx with
  | zero =>
    simp [clip]
  | succ k ih =>
    cases idx with
    | nil => simp at h
    | cons x idx => simp [List.replicate_succ, clip, ih idx (by simpa using h)]

/-- One prepended axis with a single mode. -/
theorem prepend_single (D : Arr) (w : ℕ → ℝ) (k : ℕ) (hk : D.shape.length = k) :
    ∃ R, bsub (prependAxis D) (expandW 1 w k) = some R ∧ R.shape = 1 :: D.shape ∧
      ∀ x idx, Valid idx D.shape → R.val (x :: idx) = D.val idx - w 0 := by
  have hb : bshape (1 :: D.shape) (List.replicate k 1 ++ [1]) = some (1 :: D.shape) := by
    rw [← List.replicate_succ']
    have := bshape_ones (1 :: D.shape)
    simpa [hk] using this
  refine ⟨⟨1 :: D.shape, fun idx => D.val (clip (1 :: D.shape) idx).tail -
      w ((clip (List.replicate k 1 ++ [1]) idx).getD k 0)⟩, by
    simp only [bsub, prependAxis, expandW, hb, Option.map_some], rfl, ?_⟩
  intro x idx hidx
  have hlen : idx.length = k := by rw [hidx.length_eq, hk]
  simp only
  have h1 : (clip (1 :: D.shape) (x :: idx)).tail = idx := by
    simp [clip, clip_valid hidx]
  have h2 : (clip (List.replicate k 1 ++ [1]) (x :: idx)).getD k 0 = 0 := by
    rw [← List.replicate_succ', clip_replicate_one (k + 1) (x :: idx) (by simp [hlen])]
    simp
  rw [h1, h2]

theorem valid_single {I t s : List ℕ} {n : ℕ} (hI : I.length = n) (hx : ∀ x ∈ I, x < 1)
    (h : Valid t s) : Valid (I ++ t) (List.replicate n 1 ++ s) := by
  induction I generalizing n with
  | nil =>
    subst hI
    simpa using h
  | cons a I ih =>
    subst hI
    simp only [List.length_cons, List.replicate_succ, List.cons_append]
    exact List.Forall₂.cons (hx a (by simp)) (ih rfl fun x hx' => hx x (by simp [hx']))

/-- C52 partial: with one mode the mixed denominators are right at every order.  Missing: two or
more modes beyond first order, where they are wrong. -/
theorem single_mode_partial (nv no : ℕ) (eo ev w : ℕ → ℝ) (i : ℕ) :
    D1Correct 1 nv no eo ev w i ∧ D2Correct 1 nv no eo ev w i := by
  induction i with
  | zero => exact first_order_correct 1 nv no eo ev w
  | succ i ih =>
    obtain ⟨⟨D, hD, hs, hv⟩, ⟨D', hD', hs', hv'⟩⟩ := ih
    constructor
    · obtain ⟨R, hR, hRs, hRv⟩ := prepend_single D w (i + 1 + 2) (by simp [hs])
      refine ⟨R, by simp only [d1p, hD, Option.bind_some, hR], by
        rw [hRs, hs]; simp [List.replicate_succ], fun I a j hI hx ha hj => ?_⟩
      obtain ⟨x, I, rfl⟩ : ∃ x I', I = x :: I' := by
        cases I with
        | nil => simp at hI
        | cons x I => exact ⟨x, I, rfl⟩
      have hI' : I.length = i + 1 := by simpa using hI
      have hx' : ∀ y ∈ I, y < 1 := fun y hy => hx y (by simp [hy])
      have hx0 : x = 0 := by have := hx x (by simp); omega
      rw [List.cons_append, hRv x (I ++ [a, j]), hv I a j hI' hx' ha hj]
      · simp [hx0]; ring
      · rw [hs]
        refine valid_single hI' hx' ?_
        exact List.Forall₂.cons ha (List.Forall₂.cons hj List.Forall₂.nil)
    · obtain ⟨R, hR, hRs, hRv⟩ := prepend_single D' w (i + 1 + 4) (by simp [hs'])
      refine ⟨R, by simp only [d2p, hD', Option.bind_some, hR], by
        rw [hRs, hs']; simp [List.replicate_succ], fun I a b j k hI hx ha hb hj hk => ?_⟩
      obtain ⟨x, I, rfl⟩ : ∃ x I', I = x :: I' := by
        cases I with
        | nil => simp at hI
        | cons x I => exact ⟨x, I, rfl⟩
      have hI' : I.length = i + 1 := by simpa using hI
      have hx' : ∀ y ∈ I, y < 1 := fun y hy => hx y (by simp [hy])
      have hx0 : x = 0 := by have := hx x (by simp); omega
      rw [List.cons_append, hRv x (I ++ [a, b, j, k]), hv' I a b j k hI' hx' ha hb hj hk]
      · simp [hx0]; ring
      · rw [hs']
        refine valid_single hI' hx' ?_
        exact List.Forall₂.cons ha (List.Forall₂.cons hb (List.Forall₂.cons hj
          (List.Forall₂.cons hk List.Forall₂.nil)))

theorem prepend_head (D R : Arr) (m : ℕ) (w : ℕ → ℝ) (k : ℕ)
    (h : bsub (prependAxis D) (expandW m w (k + 1)) = some R) : R.shape.head? = some 1 := by
  obtain ⟨sh, hsh, rfl⟩ := Option.map_eq_some_iff.1 h
  simp only [prependAxis, expandW, List.replicate_succ, List.cons_append, bshape] at hsh
  simp only [true_or, if_true] at hsh
  obtain ⟨r, _, rfl⟩ := Option.map_eq_some_iff.1 hsh
  rfl

/-- C52 fails: with two or more modes (or none) no mixed denominator beyond first order is right,
whatever the numbers of orbitals. -/
theorem several_modes_fails (m nv no : ℕ) (hm : m ≠ 1) (eo ev w : ℕ → ℝ) (i : ℕ) :
    ¬ D1Correct m nv no eo ev w (i + 1) ∧ ¬ D2Correct m nv no eo ev w (i + 1) := by
  constructor
  · rintro ⟨D, hD, hs, -⟩
    simp only [d1p] at hD
    obtain ⟨D0, -, h⟩ := Option.bind_eq_some_iff.1 hD
    have := prepend_head D0 D m w (i + 2) h
    rw [hs] at this
    simp [List.replicate_succ] at this
    exact hm this
  · rintro ⟨D, hD, hs, -⟩
    simp only [d2p] at hD
    obtain ⟨D0, -, h⟩ := Option.bind_eq_some_iff.1 hD
    have := prepend_head D0 D m w (i + 4) h
    rw [hs] at this
    simp [List.replicate_succ] at this
    exact hm this

/-- C52 fails with an exception unless the number of occupied orbitals happens to fit. -/
theorem several_modes_raises (m nv no : ℕ) (hm : m ≠ 1) (hno : no ≠ 1) (hne : no ≠ m)
    (eo ev w : ℕ → ℝ) : d1p m nv no eo ev w 1 = none := by
  simp [d1p, bsub, prependAxis, expandW, bshape, List.replicate_succ, hm, hno, hne]

/-- Two modes, three occupied orbitals. -/
example : d1p 2 4 3 (fun _ => -1) (fun _ => 1) (fun _ => 1) 1 = none :=
  several_modes_raises 2 4 3 (by norm_num) (by norm_num) (by norm_num) _ _ _

end OpenMS.Ccsd
