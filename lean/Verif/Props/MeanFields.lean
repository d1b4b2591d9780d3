import Verif.Props.JointWeight

/-!
# C113: the mean fields of the product formalism

`Qalpha` and `zlambda` as averages over a population: what they depend on and what they should not
depend on.
-/

namespace OpenMS.ProductStep

open Matrix OpenMS.Propagators OpenMS.Green OpenMS.Step OpenMS.JointStep

set_option linter.unusedSectionVars false

variable {p ia ib c m : Type*} [Fintype p] [DecidableEq p] [Fintype ia] [DecidableEq ia] [Fintype ib]
  [DecidableEq ib] [Fintype c] [Fintype m] [DecidableEq m] {n : m → ℕ}

/-- The sum of the weights of a list of weighted items. -/
def total {A : Type*} (ws : List (ℝ × A)) : ℝ := (ws.map fun w => w.1).sum

/-- **C113.** The fields do not depend on the order of the walkers. -/
theorem fields_perm (S : PSetup p ia ib c n) {ws ws' : List (ℝ × Matrix (Fock n) Unit ℂ)}
    (h : ws.Perm ws') {ks ks' : List (ℝ × (Matrix p ia ℂ × Matrix p ib ℂ))} (hk : ks.Perm ks') :
    qalpha ws = qalpha ws' ∧ zlambda S ks = zlambda S ks' := by
  constructor
  · funext X
    rw [qalpha_mean, qalpha_mean, (h.map _).sum_eq, (h.map (fun w => w.1)).sum_eq]
  · funext X
    unfold zlambda
    have : rho S.el ks = rho S.el ks' := by
      ext a b
      unfold rho
      rw [Matrix.of_apply, Matrix.of_apply, (hk.map _).sum_eq, (hk.map (fun w => w.1)).sum_eq]
    rw [this]

/-- **C113.** The fields do not depend on the scale of the weights. -/
theorem fields_weights (S : PSetup p ia ib c n) (s : ℝ) (hs : s ≠ 0)
    (ws : List (ℝ × Matrix (Fock n) Unit ℂ)) (ks : List (ℝ × (Matrix p ia ℂ × Matrix p ib ℂ))) :
    qalpha (ws.map fun w => (s * w.1, w.2)) = qalpha ws ∧
      zlambda S (ks.map fun k => (s * k.1, k.2)) = zlambda S ks := by
  have hs' : (s : ℂ) ≠ 0 := by exact_mod_cast hs
  constructor
  · funext X
    rw [qalpha_mean, qalpha_mean]
    simp only [List.map_map, Function.comp_def, Complex.ofReal_mul, mul_assoc, List.sum_map_mul_left]
    rw [mul_div_mul_left _ _ hs']
  · funext X
    unfold zlambda
    have : rho S.el (ks.map fun k => (s * k.1, k.2)) = rho S.el ks := by
      ext a b
      unfold rho
      simp only [Matrix.of_apply, List.map_map, Function.comp_def, Complex.ofReal_mul, mul_assoc,
        List.sum_map_mul_left]
      rw [mul_div_mul_left _ _ hs']
    rw [this]

/-- **C113.** The Green's functions of all walkers, hence the field of the electrons, do not depend on the
basis of the occupied orbitals of each walker. -/
theorem fields_gauge (S : PSetup p ia ib c n)
    (ws : List (JWalker p ia ib (Fock n) × (Matrix ia ia ℂ × Matrix ib ib ℂ)))
    (h : ∀ w ∈ ws, w.2.1.det ≠ 0 ∧ w.2.2.det ≠ 0) :
    (ws.mapM fun w => halves S.el (w.1.el.phia * w.2.1) (w.1.el.phib * w.2.2)) =
      ws.mapM fun w => halves S.el w.1.el.phia w.1.el.phib := by
  induction ws with
  | nil => rfl
  | cons w ws ih =>
    rw [List.mapM_cons, List.mapM_cons, ih fun v hv => h v (List.mem_cons_of_mem _ hv),
      halves_gauge S.el w.1.el.phia w.1.el.phib _ _ (h w List.mem_cons_self).1 (h w List.mem_cons_self).2]

theorem quadratic_smul {b : Type*} [Fintype b] (s : ℂ) (chi : Matrix b Unit ℂ) (Y : Matrix b b ℂ) :
    quadratic (s • chi) Y = (‖s‖ ^ 2 : ℝ) * quadratic chi Y := by
  unfold quadratic
  simp only [Finset.mul_sum, Matrix.smul_apply, smul_eq_mul, map_mul]
  refine Finset.sum_congr rfl fun F _ => Finset.sum_congr rfl fun G _ => ?_
  have : ((‖s‖ ^ 2 : ℝ) : ℂ) = starRingEnd ℂ s * s := by
    rw [mul_comm, Complex.mul_conj, Complex.normSq_eq_norm_sq]
  rw [this]
  ring

/-- **C113.** A common factor of the boson states changes the field of the bosons by its squared modulus. -/
theorem field_scale (s : ℂ) (ws : List (ℝ × Matrix (Fock n) Unit ℂ)) (X : m) :
    qalpha (ws.map fun w => (w.1, s • w.2)) X = (‖s‖ ^ 2 : ℝ) * qalpha ws X := by
  rw [qalpha_mean, qalpha_mean]
  simp only [List.map_map, Function.comp_def, quadratic_smul]
  rw [← mul_div_assoc, ← List.sum_map_mul_left]
  congr 3
  funext w
  ring

/-- **C113.** The field of the bosons is unchanged exactly by factors of modulus one, or if it vanishes. -/
theorem field_scale_iff (s : ℂ) (ws : List (ℝ × Matrix (Fock n) Unit ℂ)) (X : m) :
    qalpha (ws.map fun w => (w.1, s • w.2)) X = qalpha ws X ↔ ‖s‖ = 1 ∨ qalpha ws X = 0 := by
  rw [field_scale]
  constructor
  · intro h
    by_cases h0 : qalpha ws X = 0
    · exact Or.inr h0
    · left
      have h1 : ((‖s‖ ^ 2 : ℝ) : ℂ) = 1 := mul_right_cancel₀ h0 (by rw [h, one_mul])
      have h2 : ‖s‖ ^ 2 = 1 := by exact_mod_cast h1
      nlinarith [norm_nonneg s]
  · rintro (h | h)
    · rw [h]; norm_num
    · rw [h, mul_zero]

/-- Specification: the expectation value of `Y` in the state `χ`. -/
noncomputable def expectation {b : Type*} [Fintype b] [DecidableEq b] (chi : Matrix b Unit ℂ)
    (Y : Matrix b b ℂ) : ℂ :=
  quadratic chi Y / quadratic chi 1

/-- **C113.** For one walker with a non-zero state the field is the expectation value of `b† + b` exactly
if that vanishes or the state is normalised. -/
theorem field_expectation_iff (wt : ℝ) (hw : wt ≠ 0) (chi : Matrix (Fock n) Unit ℂ)
    (hc : quadratic chi 1 ≠ 0) (X : m) :
    qalpha [(wt, chi)] X = expectation chi (position X) ↔
      expectation chi (position X) = 0 ∨ quadratic chi 1 = 1 := by
  have hw' : (wt : ℂ) ≠ 0 := by exact_mod_cast hw
  have h1 : qalpha [(wt, chi)] X = expectation chi (position X) * quadratic chi 1 := by
    rw [qalpha_mean, expectation, div_mul_cancel₀ _ hc]
    simp only [List.map_cons, List.map_nil, List.sum_cons, List.sum_nil, add_zero]
    field_simp
  rw [h1]
  constructor
  · intro h
    by_cases h0 : expectation chi (position X) = 0
    · exact Or.inl h0
    · exact Or.inr (mul_left_cancel₀ h0 (by rw [h, mul_one]))
  · rintro (h | h)
    · rw [h, zero_mul]
    · rw [h, mul_one]

theorem mean_append (a b W V : ℂ) (hW : W ≠ 0) (hV : V ≠ 0) (hs : W + V ≠ 0) :
    a / W = (a + b) / (W + V) ↔ a / W = b / V := by
  rw [div_eq_div_iff hW hs, div_eq_div_iff hW hV]
  constructor
  · intro h
    linear_combination h
  · intro h
    linear_combination h

/-- **C113.** The field on one process is that of the whole population exactly if it equals the field of
the rest: bosons. -/
theorem qalpha_local_iff (ws vs : List (ℝ × Matrix (Fock n) Unit ℂ)) (X : m) (hw : total ws ≠ 0)
    (hv : total vs ≠ 0) (hs : total ws + total vs ≠ 0) :
    qalpha ws X = qalpha (ws ++ vs) X ↔ qalpha ws X = qalpha vs X := by
  rw [qalpha_mean, qalpha_mean, qalpha_mean, List.map_append, List.map_append, List.sum_append,
    List.sum_append, Complex.ofReal_add]
  exact mean_append _ _ _ _ (by exact_mod_cast hw) (by exact_mod_cast hv) (by exact_mod_cast hs)

/-- **C113.** The same for the electrons. -/
theorem zlambda_local_iff (S : PSetup p ia ib c n) (ks ls : List (ℝ × (Matrix p ia ℂ × Matrix p ib ℂ)))
    (X : m) (hw : total ks ≠ 0) (hv : total ls ≠ 0) (hs : total ks + total ls ≠ 0) :
    zlambda S ks X = zlambda S (ks ++ ls) X ↔ zlambda S ks X = zlambda S ls X := by
  have key : ∀ ks : List (ℝ × (Matrix p ia ℂ × Matrix p ib ℂ)), zlambda S ks X =
      (∑ a, ∑ b, (ks.map fun k => (k.1 : ℂ) * gsum S.el k.2 a b).sum * S.geb X a b) / (total ks : ℝ) := by
    intro ks
    unfold zlambda rho total
    simp only [Matrix.of_apply, Finset.sum_div]
    refine Finset.sum_congr rfl fun i _ => Finset.sum_congr rfl fun j _ => ?_
    ring
  have ht : total (ks ++ ls) = total ks + total ls := by
    unfold total
    rw [List.map_append, List.sum_append]
  rw [key, key, key, ht, Complex.ofReal_add]
  simp only [List.map_append, List.sum_append, add_mul, Finset.sum_add_distrib]
  exact mean_append _ _ _ _ (by exact_mod_cast hw) (by exact_mod_cast hv) (by exact_mod_cast hs)

theorem quadratic_real {b : Type*} [Fintype b] (chi : Matrix b Unit ℂ) (Y : Matrix b b ℂ)
    (hY : Yᴴ = Y) : starRingEnd ℂ (quadratic chi Y) = quadratic chi Y := by
  unfold quadratic
  simp only [map_sum, map_mul, Complex.conj_conj]
  rw [Finset.sum_comm]
  refine Finset.sum_congr rfl fun F _ => Finset.sum_congr rfl fun G _ => ?_
  have : starRingEnd ℂ (Y G F) = Y F G := by
    rw [← congrFun (congrFun hY F) G]; rfl
  rw [this]
  ring

theorem position_hermitian (X : m) : (position X : Matrix (Fock n) (Fock n) ℂ)ᴴ = position X := by
  ext F G
  unfold position
  simp only [Matrix.conjTranspose_apply, Matrix.of_apply]
  by_cases hX : F.1 = X ∧ G.1 = X
  · rw [if_pos hX.symm, if_pos hX]
    by_cases h1 : (F.2 : ℕ) = G.2 + 1
    · have h2 : ¬ (G.2 : ℕ) = F.2 + 1 := by omega
      rw [if_neg h2, if_pos h1, if_pos h1]
      exact Complex.conj_ofReal _
    · by_cases h2 : (G.2 : ℕ) = F.2 + 1
      · rw [if_pos h2, if_neg h1, if_pos h2]
        exact Complex.conj_ofReal _
      · rw [if_neg h2, if_neg h1, if_neg h1, if_neg h2, star_zero]
  · rw [if_neg fun h => hX h.symm, if_neg hX, star_zero]

/-- **C113.** The field of the bosons is real, so the one-body matrix of the electrons stays Hermitian. -/
theorem field_real (ws : List (ℝ × Matrix (Fock n) Unit ℂ)) (X : m) : (qalpha ws X).im = 0 := by
  rw [← Complex.conj_eq_iff_im, qalpha_mean, map_div₀, Complex.conj_ofReal]
  congr 1
  induction ws with
  | nil => simp
  | cons w ws ih =>
    simp only [List.map_cons, List.sum_cons, map_add, map_mul, Complex.conj_ofReal]
    rw [ih, quadratic_real _ _ (position_hermitian X)]

/-- **C113.** The walkers of a process all move in the same two fields, the averages over the process. -/
theorem population_step (S : PSetup p ia ib c n) (eshift : ℂ)
    (ws : List (((c → ℝ) × JWalker p ia ib (Fock n)) × (Matrix p ia ℂ × Matrix p ib ℂ)))
    (hk : ∀ v ∈ ws, halves S.el v.1.2.el.phia v.1.2.el.phib = some v.2)
    (hb : ∀ v ∈ ws, bosonOvlp S.psi v.1.2.chi ≠ 0) (h0 : (ws.map fun v => v.1.2.el.weight).sum ≠ 0) :
    pstep S eshift (ws.map Prod.fst) = ws.mapM fun v => pone S
      (fun X => (ws.map fun v => (v.1.2.el.weight : ℂ) * quadratic v.1.2.chi (position X)).sum /
        ((ws.map fun v => v.1.2.el.weight).sum : ℝ))
      (fun X => (ws.map fun v => (v.1.2.el.weight : ℂ) * meanE S v.1.2 (S.geb X)).sum /
        ((ws.map fun v => v.1.2.el.weight).sum : ℝ))
      eshift v.1.1 v.2 v.1.2 := by
  have hm : (ws.map Prod.fst).mapM (fun w => halves S.el w.2.el.phia w.2.el.phib) =
      some (ws.map Prod.snd) := by
    clear hb h0
    induction ws with
    | nil => rfl
    | cons v ws ih =>
      rw [List.map_cons, List.mapM_cons, ih fun u hu => hk u (List.mem_cons_of_mem _ hu),
        hk v List.mem_cons_self]
      rfl
  have hb' : ¬ ∃ w ∈ ws.map Prod.fst, bosonOvlp S.psi w.2.chi = 0 := by
    rintro ⟨w, hw, h⟩
    obtain ⟨v, hv, rfl⟩ := List.mem_map.1 hw
    exact hb v hv h
  have hq : qalpha ((ws.map Prod.fst).map fun w => (w.2.el.weight, w.2.chi)) =
      fun X => (ws.map fun v => (v.1.2.el.weight : ℂ) * quadratic v.1.2.chi (position X)).sum /
        ((ws.map fun v => v.1.2.el.weight).sum : ℝ) := by
    funext X
    rw [qalpha_mean]
    simp only [List.map_map, Function.comp_def]
  have hz : zlambda S (((ws.map Prod.fst).map fun w => w.2.el.weight).zip (ws.map Prod.snd)) =
      fun X => (ws.map fun v => (v.1.2.el.weight : ℂ) * meanE S v.1.2 (S.geb X)).sum /
        ((ws.map fun v => v.1.2.el.weight).sum : ℝ) := by
    funext X
    have := zlambda_mean S (ws.map fun v => (v.1.2, v.2)) (by
      intro w hw
      obtain ⟨v, hv, rfl⟩ := List.mem_map.1 hw
      exact hk v hv) X
    simp only [List.map_map, Function.comp_def] at this
    rw [← this, List.map_map, List.zip_map']
    rfl
  have hzip : (ws.map Prod.fst).zip (ws.map Prod.snd) = ws := by
    rw [List.zip_map']
    simp
  unfold pstep
  rw [hm]
  simp only [hq, hz, hzip]
  rw [if_neg hb', if_neg (by rwa [List.map_map])]

/-! ### Two walkers on two processes -/

/-- One electron of each spin in its own orbital, a coupling that shifts the orbitals in opposite
directions. -/
noncomputable def pair : PSetup (Fin 2) (Fin 1) (Fin 1) Empty (fun _ : Unit => 2) where
  el :=
    { two := true
      dt := 1
      order := 1
      bound := 1
      scheme := some "hybrid"
      expH := fun _ => 1
      L := fun _ => 0
      lbar := fun _ => 0
      Ta := !![1; 0]
      Tb := !![0; 1] }
  h := fun _ => 0
  Hb := 0
  geb := fun _ => Matrix.diagonal ![1, -1]
  psi := fun F => if F.2 = 0 then 1 else 0

/-- A walker with the orbitals of the trial. -/
noncomputable def pairWalker (a b : ℂ) : JWalker (Fin 2) (Fin 1) (Fin 1) (Fock fun _ : Unit => 2) :=
  ⟨⟨!![1; 0], !![0; 1], 1, 0, 0⟩, Matrix.of fun F _ => if F.2 = 0 then a else b⟩

theorem pair_halves (a b : ℂ) : halves pair.el (pairWalker a b).el.phia (pairWalker a b).el.phib =
    some (!![1; 0], !![0; 1]) := by
  have h1 : ovlpMatrix (!![1; 0] : Matrix (Fin 2) (Fin 1) ℂ) !![1; 0] = 1 := by
    ext a b
    fin_cases a; fin_cases b
    simp [ovlpMatrix, conj, Matrix.mul_apply]
  have h2 : ovlpMatrix (!![0; 1] : Matrix (Fin 2) (Fin 1) ℂ) !![0; 1] = 1 := by
    ext a b
    fin_cases a; fin_cases b
    simp [ovlpMatrix, conj, Matrix.mul_apply]
  have g1 : ghalf (!![1; 0] : Matrix (Fin 2) (Fin 1) ℂ) !![1; 0] = some !![1; 0] := by
    unfold ghalf Green.inv
    rw [h1, if_neg (by simp), inv_one]
    simp only [Option.map_some, Option.some.injEq]
    ext a b
    fin_cases b
    fin_cases a <;> simp
  have g2 : ghalf (!![0; 1] : Matrix (Fin 2) (Fin 1) ℂ) !![0; 1] = some !![0; 1] := by
    unfold ghalf Green.inv
    rw [h2, if_neg (by simp), inv_one]
    simp only [Option.map_some, Option.some.injEq]
    ext a b
    fin_cases b
    fin_cases a <;> simp
  unfold halves
  rw [show ghalf pair.el.Ta (pairWalker a b).el.phia = some !![1; 0] from g1,
    show ghalf pair.el.Tb (pairWalker a b).el.phib = some !![0; 1] from g2]
  rfl

theorem pair_boson (a b : ℂ) : bosonOvlp pair.psi (pairWalker a b).chi = a := by
  rw [bosonOvlp, fock_sum]
  simp [pair, pairWalker]

theorem pair_move (q : ℂ) (i : Fin 2) (phi : Matrix (Fin 2) (Fin 1) ℂ) (s : Fin 2) (x : Empty → ℝ)
    (xb : Empty → ℂ) :
    move (withField pair fun _ => q) (fieldOp (withField pair fun _ => q) x xb)
      ((withField pair fun _ => q).expH s) phi i 0 =
    Complex.exp (-q * ![1, -1] i) * phi i 0 := by
  have hE : (withField pair fun _ => q).expH s =
      Matrix.diagonal fun i => Complex.exp (-q / 2 * ![1, -1] i) := by
    unfold withField pair
    simp only [Finset.univ_unique, Finset.sum_singleton, zero_add]
    rw [← Matrix.diagonal_smul, ← Matrix.diagonal_smul, Matrix.exp_diagonal]
    congr 1
    funext i
    rw [Pi.coe_exp, Complex.exp_eq_exp_ℂ]
    congr 1
    simp only [Pi.smul_apply, smul_eq_mul]
    push_cast
    ring
  have hA : fieldOp (withField pair fun _ => q) x xb = 0 := by
    unfold fieldOp
    simp
  rw [hE, hA, move]
  rw [show expOpOne 0 ((Matrix.diagonal fun i => Complex.exp (-q / 2 * ![1, -1] i)) * phi)
    (withField pair fun _ => q).order = (Matrix.diagonal fun i => Complex.exp (-q / 2 * ![1, -1] i)) * phi by
    rw [expOpOne_zero]]
  rw [Matrix.diagonal_mul, Matrix.diagonal_mul, ← mul_assoc, ← Complex.exp_add]
  congr 2
  ring

theorem pair_chi (chi : Matrix (Fock fun _ : Unit => 2) Unit ℂ) : moveP pair (fun _ => 0) chi = chi := by
  have h1 : (adagPlusA (fun _ => 0) : Matrix (Fock fun _ : Unit => 2) (Fock fun _ : Unit => 2) ℂ) = 0 := by
    ext F G
    simp [adagPlusA]
  unfold moveP
  rw [h1, show pair.Hb = 0 from rfl, smul_zero, smul_zero, NormedSpace.exp_zero]
  simp

theorem pair_step (a b q e : ℂ) (ha : a ≠ 0) (x : Empty → ℝ) :
    ∃ r : ℝ × ℝ, pone pair (fun _ => q) (fun _ => 0) e x (!![1; 0], !![0; 1]) (pairWalker a b) =
      .ok ⟨⟨move (withField pair fun _ => q) (fieldOp (withField pair fun _ => q) x
          (xbar (withField pair fun _ => q) (!![1; 0], !![0; 1])))
          ((withField pair fun _ => q).expH 0) (pairWalker a b).el.phia,
        move (withField pair fun _ => q) (fieldOp (withField pair fun _ => q) x
          (xbar (withField pair fun _ => q) (!![1; 0], !![0; 1])))
          ((withField pair fun _ => q).expH 1) (pairWalker a b).el.phib, r.1, r.2, 0⟩,
        moveP pair (fun _ => 0) (pairWalker a b).chi⟩ := by
  have hne : ovlp (withField pair fun _ => q)
      (move (withField pair fun _ => q) (fieldOp (withField pair fun _ => q) x
        (xbar (withField pair fun _ => q) (!![1; 0], !![0; 1])))
        ((withField pair fun _ => q).expH 0) (pairWalker a b).el.phia)
      (move (withField pair fun _ => q) (fieldOp (withField pair fun _ => q) x
        (xbar (withField pair fun _ => q) (!![1; 0], !![0; 1])))
        ((withField pair fun _ => q).expH 1) (pairWalker a b).el.phib) *
      bosonOvlp pair.psi (moveP pair (fun _ => 0) (pairWalker a b).chi) ≠ 0 := by
    rw [pair_chi, pair_boson]
    refine mul_ne_zero ?_ ha
    have h1 : (withField pair fun _ => q).two = true := rfl
    have h2 : (withField pair fun _ => q).Ta = !![1; 0] := rfl
    have h3 : (withField pair fun _ => q).Tb = !![0; 1] := rfl
    unfold ovlp beta
    rw [h1, h2, h3, if_pos rfl]
    unfold overlap
    simp only
    refine mul_ne_zero ?_ ?_
    · simp [ovlpMatrix, conj, Matrix.mul_apply, Fin.sum_univ_two, pair_move, pairWalker]
    · simp [ovlpMatrix, conj, Matrix.mul_apply, Fin.sum_univ_two, pair_move, pairWalker]
  unfold pone
  simp only [show (withField pair fun _ => q).two = true from rfl, if_true]
  rw [if_neg hne]
  simp only [updateWeight, show (withField pair fun _ => q).scheme = some "hybrid" from rfl, if_true]
  exact ⟨_, rfl⟩

theorem pair_pone (a b q : ℂ) (ha : a ≠ 0) (x : Empty → ℝ) :
    ∃ w', pone pair (fun _ => q) (fun _ => 0) 0 x (!![1; 0], !![0; 1]) (pairWalker a b) = .ok w' ∧
      w'.el.phia 0 0 = Complex.exp (-q) := by
  obtain ⟨r, hr⟩ := pair_step a b q 0 ha x
  refine ⟨_, hr, ?_⟩
  simp only [pair_move]
  simp [pairWalker]

/-- The hypotheses of `product_weight` can be met. -/
example : ∃ (eshift : ℂ) (x : Empty → ℝ) (w' : JWalker (Fin 2) (Fin 1) (Fin 1) (Fock fun _ : Unit => 2))
    (k : Matrix (Fin 2) (Fin 1) ℂ × Matrix (Fin 2) (Fin 1) ℂ) (R : ℂ), 0 < pair.el.dt ∧
    pair.el.scheme = some "hybrid" ∧
    pone pair (fun _ => 1) (fun _ => 0) eshift x k (pairWalker 1 1) = .ok w' ∧
    halves pair.el (pairWalker 1 1).el.phia (pairWalker 1 1).el.phib = some k ∧
    bosonOvlp pair.psi (pairWalker 1 1).chi ≠ 0 ∧
    R = (ovlp pair.el w'.el.phia w'.el.phib * bosonOvlp pair.psi w'.chi) /
        (ovlp pair.el (pairWalker 1 1).el.phia (pairWalker 1 1).el.phib *
          bosonOvlp pair.psi (pairWalker 1 1).chi) *
      Complex.exp (cfb x (xbar pair.el k) + cmf pair.el.dt x (xbar pair.el k) pair.el.lbar) ∧
    |-Real.log ‖R‖ / pair.el.dt - eshift.re| ≤ Real.sqrt (2 / pair.el.dt) := by
  let x : Empty → ℝ := fun e => e.elim
  obtain ⟨r, hr⟩ := pair_step 1 1 1 0 one_ne_zero x
  generalize hA : move _ _ _ (pairWalker 1 1).el.phia = A at hr
  generalize hB : move _ _ _ (pairWalker 1 1).el.phib = B at hr
  let R : ℂ := (ovlp pair.el A B * bosonOvlp pair.psi (moveP pair (fun _ => 0) (pairWalker 1 1).chi)) /
        (ovlp pair.el (pairWalker 1 1).el.phia (pairWalker 1 1).el.phib *
          bosonOvlp pair.psi (pairWalker 1 1).chi) *
      Complex.exp (cfb x (xbar pair.el (!![1; 0], !![0; 1])) +
        cmf pair.el.dt x (xbar pair.el (!![1; 0], !![0; 1])) pair.el.lbar)
  obtain ⟨r', hr'⟩ := pair_step 1 1 1 ((-Real.log ‖R‖ / pair.el.dt : ℝ) : ℂ) one_ne_zero x
  rw [hA, hB] at hr'
  refine ⟨_, x, _, (!![1; 0], !![0; 1]), R, by norm_num [pair], rfl, hr', pair_halves 1 1, ?_, rfl, ?_⟩
  · rw [pair_boson]; exact one_ne_zero
  · rw [Complex.ofReal_re, sub_self, abs_zero]
    exact Real.sqrt_nonneg _

theorem pair_mean (a b : ℂ) (X : Unit) : meanE pair (pairWalker a b) (pair.geb X) = 0 := by
  rw [← gsum_contract pair _ _ (pair_halves a b)]
  simp [gsum, pair, fullG, conj, Fin.sum_univ_two]

theorem pair_quadratic (a b : ℂ) : quadratic (pairWalker a b).chi (position ()) =
    starRingEnd ℂ a * b + starRingEnd ℂ b * a := by
  rw [quadratic, fock_sum, fock_sum, fock_sum]
  simp [pairWalker, position]

/-- **C113.** Two walkers with normalised boson states: on two processes they end up in other states than on
one, although the random fields (there are none) agree. -/
theorem split_fails : ∃ (S : PSetup (Fin 2) (Fin 1) (Fin 1) Empty (fun _ : Unit => 2))
    (u v a b a' b' : JWalker (Fin 2) (Fin 1) (Fin 1) (Fock fun _ : Unit => 2)) (x : Empty → ℝ),
    quadratic u.chi 1 = 1 ∧ quadratic v.chi 1 = 1 ∧ u.el.weight = v.el.weight ∧
    pstep S 0 [(x, u)] = .ok [a] ∧ pstep S 0 [(x, v)] = .ok [b] ∧
    pstep S 0 [(x, u), (x, v)] = .ok [a', b'] ∧ a'.el.phia ≠ a.el.phia ∧ b'.el.phia ≠ b.el.phia := by
  have c3 : (starRingEnd ℂ) (3 : ℂ) = 3 := by simpa using map_natCast (starRingEnd ℂ) 3
  have c4 : (starRingEnd ℂ) (4 : ℂ) = 4 := by simpa using map_natCast (starRingEnd ℂ) 4
  have c5 : (starRingEnd ℂ) (5 : ℂ) = 5 := by simpa using map_natCast (starRingEnd ℂ) 5
  let x : Empty → ℝ := fun e => e.elim
  let u := pairWalker (3 / 5) (4 / 5)
  let v := pairWalker 1 0
  have qu : quadratic u.chi (position ()) = 24 / 25 := by
    rw [pair_quadratic, map_div₀, map_div₀, c3, c4, c5]; norm_num
  have qv : quadratic v.chi (position ()) = 0 := by
    rw [pair_quadratic]; simp
  have hw : ∀ a b, (pairWalker a b).el.weight = 1 := fun _ _ => rfl
  have one : ∀ a b, a ≠ 0 → pstep pair 0 [(x, pairWalker a b)] =
      (pone pair (fun _ => quadratic (pairWalker a b).chi (position ())) (fun _ => 0) 0 x
        (!![1; 0], !![0; 1]) (pairWalker a b)).map fun w' => [w'] := by
    intro a b ha
    rw [single_step pair 0 x _ _ (pair_halves a b) (by rwa [pair_boson]) (by rw [hw]; norm_num)]
    simp only [pair_mean]
  obtain ⟨ru, hru, pu⟩ := pair_pone (3 / 5) (4 / 5) (24 / 25) (by norm_num) x
  obtain ⟨rv, hrv, pv⟩ := pair_pone 1 0 0 (by norm_num) x
  obtain ⟨su, hsu, tu⟩ := pair_pone (3 / 5) (4 / 5) (12 / 25) (by norm_num) x
  obtain ⟨sv, hsv, tv⟩ := pair_pone 1 0 (12 / 25) (by norm_num) x
  have hex : ∀ y z : ℝ, y ≠ z → Complex.exp (y : ℂ) ≠ Complex.exp (z : ℂ) := by
    intro y z h h1
    exact h (Real.exp_injective (by exact_mod_cast h1))
  refine ⟨pair, u, v, ru, rv, su, sv, x, ?_, ?_, rfl, ?_, ?_, ?_, ?_, ?_⟩
  · show quadratic (pairWalker (3 / 5) (4 / 5)).chi 1 = 1
    rw [quadratic, fock_sum, fock_sum, fock_sum]
    simp [pairWalker, c3, c4, c5]
    norm_num
  · show quadratic (pairWalker 1 0).chi 1 = 1
    rw [quadratic, fock_sum, fock_sum, fock_sum]
    simp [pairWalker]
  · rw [one _ _ (by norm_num), qu, hru]; rfl
  · rw [one _ _ (by norm_num), qv, hrv]; rfl
  · have := population_step pair 0 [((x, u), (!![1; 0], !![0; 1])), ((x, v), (!![1; 0], !![0; 1]))]
      (by
        intro w hm
        simp only [List.mem_cons, List.not_mem_nil, or_false] at hm
        rcases hm with rfl | rfl
        · exact pair_halves _ _
        · exact pair_halves _ _)
      (by
        intro w hm
        simp only [List.mem_cons, List.not_mem_nil, or_false] at hm
        rcases hm with rfl | rfl
        · show bosonOvlp pair.psi (pairWalker (3 / 5) (4 / 5)).chi ≠ 0
          rw [pair_boson]; norm_num
        · show bosonOvlp pair.psi (pairWalker 1 0).chi ≠ 0
          rw [pair_boson]; norm_num)
      (by simp [u, v, hw])
    simp only [List.map_cons, List.map_nil, List.sum_cons, List.sum_nil, add_zero, qu, qv,
      show u.el.weight = 1 from rfl, show v.el.weight = 1 from rfl,
      show ∀ X, meanE pair u (pair.geb X) = 0 from pair_mean _ _,
      show ∀ X, meanE pair v (pair.geb X) = 0 from pair_mean _ _] at this
    rw [this]
    have e1 : (((1 : ℝ) : ℂ) * (24 / 25) + ((1 : ℝ) : ℂ) * 0) / ((1 + 1 : ℝ) : ℂ) = 12 / 25 := by
      push_cast; norm_num
    have e2 : (((1 : ℝ) : ℂ) * 0 + ((1 : ℝ) : ℂ) * 0) / ((1 + 1 : ℝ) : ℂ) = 0 := by simp
    rw [e2, e1, List.mapM_cons, List.mapM_cons, List.mapM_nil]
    simp only
    rw [hsu, hsv]
    rfl
  · intro h
    have := congrFun (congrFun h 0) 0
    rw [tu, pu] at this
    have h2 := hex (-(12 / 25)) (-(24 / 25)) (by norm_num)
    push_cast at h2
    exact h2 this
  · intro h
    have := congrFun (congrFun h 0) 0
    rw [tv, pv] at this
    have h2 := hex (-(12 / 25)) 0 (by norm_num)
    push_cast at h2
    exact h2 (by simpa using this)

/-- **C113.** One walker: a factor of its boson state changes where the electrons go. -/
theorem scale_fails : ∃ (S : PSetup (Fin 2) (Fin 1) (Fin 1) Empty (fun _ : Unit => 2))
    (u a a' : JWalker (Fin 2) (Fin 1) (Fin 1) (Fock fun _ : Unit => 2)) (x : Empty → ℝ),
    pstep S 0 [(x, u)] = .ok [a] ∧ pstep S 0 [(x, ⟨u.el, (2 : ℂ) • u.chi⟩)] = .ok [a'] ∧
    a'.el.phia ≠ a.el.phia := by
  let x : Empty → ℝ := fun e => e.elim
  have hw : ∀ a b, (pairWalker a b).el.weight = 1 := fun _ _ => rfl
  have one : ∀ a b, a ≠ 0 → pstep pair 0 [(x, pairWalker a b)] =
      (pone pair (fun _ => starRingEnd ℂ a * b + starRingEnd ℂ b * a) (fun _ => 0) 0 x
        (!![1; 0], !![0; 1]) (pairWalker a b)).map fun w' => [w'] := by
    intro a b ha
    rw [single_step pair 0 x _ _ (pair_halves a b) (by rwa [pair_boson]) (by rw [hw]; norm_num)]
    simp only [pair_mean, ← pair_quadratic]
  have h2 : (⟨(pairWalker 1 1).el, (2 : ℂ) • (pairWalker 1 1).chi⟩ :
      JWalker (Fin 2) (Fin 1) (Fin 1) (Fock fun _ : Unit => 2)) = pairWalker 2 2 := by
    unfold pairWalker
    congr 1
    ext F j
    simp
  have c2 : (starRingEnd ℂ) (2 : ℂ) = 2 := by simpa using map_natCast (starRingEnd ℂ) 2
  obtain ⟨ru, hru, pu⟩ := pair_pone 1 1 2 (by norm_num) x
  obtain ⟨rv, hrv, pv⟩ := pair_pone 2 2 8 (by norm_num) x
  refine ⟨pair, pairWalker 1 1, ru, rv, x, ?_, ?_, ?_⟩
  · rw [one _ _ (by norm_num), map_one,
      show (1 : ℂ) * 1 + 1 * 1 = 2 by norm_num, hru]
    rfl
  · rw [h2, one _ _ (by norm_num), c2, show (2 : ℂ) * 2 + 2 * 2 = 8 by norm_num, hrv]
    rfl
  · intro h
    have := congrFun (congrFun h 0) 0
    rw [pu, pv] at this
    have h3 : Real.exp (-8) ≠ Real.exp (-2) := fun h => by
      have := Real.exp_injective h
      norm_num at this
    refine h3 ?_
    have h4 : (Real.exp (-8) : ℂ) = (Real.exp (-2) : ℂ) := by
      rw [Complex.ofReal_exp, Complex.ofReal_exp]
      push_cast
      exact this.symm ▸ rfl
    exact Complex.ofReal_injective h4

end OpenMS.ProductStep

namespace OpenMS.JointStep

open Matrix OpenMS.Propagators OpenMS.Green OpenMS.Step

set_option linter.unusedSectionVars false

variable {p ia ib c d b : Type*} [Fintype p] [Fintype ia] [DecidableEq ia] [Fintype ib]
  [DecidableEq ib] [Fintype c] [Fintype d] [Fintype b]

theorem bosonOvlp_smul (psi : b → ℂ) (s : ℂ) (chi : Matrix b Unit ℂ) :
    bosonOvlp psi (s • chi) = s * bosonOvlp psi chi := by
  unfold bosonOvlp
  rw [Finset.mul_sum]
  refine Finset.sum_congr rfl fun n _ => ?_
  rw [Matrix.smul_apply, smul_eq_mul]
  ring

theorem bosonVbias_smul (S : JSetup p ia ib c d b) (s : ℂ) (hs : s ≠ 0) (chi : Matrix b Unit ℂ) :
    bosonVbias S (s • chi) = bosonVbias S chi := by
  funext γ
  unfold bosonVbias
  rw [bosonOvlp_smul]
  refine Finset.sum_congr rfl fun k _ => Finset.sum_congr rfl fun n _ => ?_
  rw [Matrix.smul_apply, smul_eq_mul]
  have : s * chi k () * (1 / (s * bosonOvlp S.psi chi)) = chi k () * (1 / bosonOvlp S.psi chi) := by
    rw [one_div, one_div, mul_inv]
    field_simp
  rw [this]

theorem moveB_smul (S : JSetup p ia ib c d b) (y : d → ℝ) (yb : d → ℂ) (s : ℂ) (chi : Matrix b Unit ℂ) :
    moveB S y yb (s • chi) = s • moveB S y yb chi := by
  have h : ∀ phi : Matrix b Unit ℂ, s • phi = phi * (s • (1 : Matrix Unit Unit ℂ)) := by
    intro phi
    rw [Matrix.mul_smul, Matrix.mul_one]
  unfold moveB
  rw [Matrix.mul_smul, h, expOpOne_mul, ← Matrix.mul_assoc, ← h]

/-- **C113.** With a decoupled bilinear term a factor of the boson state has no influence: the step multiplies
the new boson state by it and changes nothing else. -/
theorem jstep_scale (S : JSetup p ia ib c d b) (eshift : ℂ) (x : c ⊕ d → ℝ) (w : JWalker p ia ib b)
    (s : ℂ) (hs : s ≠ 0) :
    jstep S eshift x ⟨w.el, s • w.chi⟩ = (jstep S eshift x w).map fun w' => ⟨w'.el, s • w'.chi⟩ := by
  unfold jstep
  simp only
  cases halves S.el w.el.phia w.el.phib with
  | none => rfl
  | some h =>
    simp only [bosonOvlp_smul, mul_eq_zero, hs, false_or]
    by_cases h0 : bosonOvlp S.psi w.chi = 0
    · rw [if_pos h0, if_pos h0]; rfl
    rw [if_neg h0, if_neg h0]
    have hb : bbar S (s • w.chi) = bbar S w.chi := by
      unfold bbar
      rw [bosonVbias_smul S s hs]
    simp only [hb, moveB_smul, bosonOvlp_smul, mul_eq_zero, hs, false_or]
    generalize (if S.el.two = true then _ else _ : Matrix p ib ℂ) = B
    generalize move S.el _ (S.el.expH 0) w.el.phia = A
    generalize moveB S _ _ w.chi = chi'
    by_cases h1 : ovlp S.el A B = 0 ∨ bosonOvlp S.psi chi' = 0
    · rw [if_pos h1, if_pos h1]; rfl
    rw [if_neg h1, if_neg h1]
    have hr : ovlp S.el A B * (s * bosonOvlp S.psi chi') /
        (ovlp S.el w.el.phia w.el.phib * (s * bosonOvlp S.psi w.chi)) =
        ovlp S.el A B * bosonOvlp S.psi chi' / (ovlp S.el w.el.phia w.el.phib * bosonOvlp S.psi w.chi) := by
      rw [show ovlp S.el A B * (s * bosonOvlp S.psi chi') = s * (ovlp S.el A B * bosonOvlp S.psi chi') by ring,
        show ovlp S.el w.el.phia w.el.phib * (s * bosonOvlp S.psi w.chi) =
          s * (ovlp S.el w.el.phia w.el.phib * bosonOvlp S.psi w.chi) by ring, mul_div_mul_left _ _ hs]
    simp only [updateWeight, updateHybrid, hybridEnergy, updateLocal, hr]
    split_ifs <;> rfl

end OpenMS.JointStep
