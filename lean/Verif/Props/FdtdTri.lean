import Verif.Model.FdtdTri
import Verif.Props.FdtdBloch

/-! Properties of `Verif/Model/FdtdTri.lean` (C173). -/

namespace OpenMS.Fdtd

/-- The real arrays. -/
def realSt (s : EA ℝ × HA ℝ) : St ℝ := (fun c => (s.1 c).1, fun c => (s.2 c).1)

theorem copies_fst {V : Type*} (l : List (Ix × Ix × (V × V → V × V → V × V))) (l' : List (Ix × Ix × (V → V → V)))
    (h : List.Forall₂ (fun w w' => w.1 = w'.1 ∧ w.2.1 = w'.2.1 ∧ ∀ d s, (w.2.2 d s).1 = w'.2.2 d.1 s.1) l l') (a : Ix → V × V) :
    (fun c => (copies l a c).1) = copies l' fun c => (a c).1 := by
  unfold copies
  induction h generalizing a with
  | nil => rfl
  | @cons w w' l l' hw _ ih =>
    rw [List.foldl_cons, List.foldl_cons, ih]
    congr 1
    funext c
    obtain ⟨h1, h2, h3⟩ := hw
    rw [h1, h2]
    by_cases hc : c = w'.1
    · subst hc
      simp only [Function.update_self]
      exact h3 _ _
    · simp only [Function.update_of_ne hc]

theorem forall2_flatMap {α β γ : Type*} (r : β → γ → Prop) (l : List α) (f : α → List β) (g : α → List γ)
    (h : ∀ a, List.Forall₂ r (f a) (g a)) : List.Forall₂ r (l.flatMap f) (l.flatMap g) := by
  induction l with
  | nil => exact .nil
  | cons a l ih =>
    rw [List.flatMap_cons, List.flatMap_cons]
    exact List.rel_append (h a) ih

theorem fst_EX (P : Par ℝ) (e : EA ℝ) : (fun c => (blochEx P 1 0 e c).1) = gammaEXwall P fun c => (e c).1 := by
  refine copies_fst _ _ (forall2_flatMap _ _ _ _ fun a => ?_) e
  refine .cons ⟨rfl, rfl, fun d s => ?_⟩ (.cons ⟨rfl, rfl, fun d s => ?_⟩ .nil) <;> simp [backEx, forthEyz]

theorem fst_HX (P : Par ℝ) (e : HA ℝ) : (fun c => (blochHx P 1 0 e c).1) = gammaHXwall P fun c => (e c).1 := by
  refine copies_fst _ _ (forall2_flatMap _ _ _ _ fun a => ?_) e
  refine .cons ⟨rfl, rfl, fun d s => ?_⟩ (.cons ⟨rfl, rfl, fun d s => ?_⟩ .nil) <;> simp [forthHx, backHyz]

theorem fst_EY (P : Par ℝ) (e : EA ℝ) : (fun c => (blochEwall P 1 0 1 0 e c).1) = gammaEYwall P fun c => (e c).1 := by
  unfold blochEwall gammaEYwall
  dsimp only
  rw [copies_fst _ _ (forall2_flatMap _ _ _ _ fun a => ?_), copies_fst _ _ (forall2_flatMap _ _ _ _ fun a => ?_)]
  all_goals refine .cons ⟨rfl, rfl, fun d s => ?_⟩ (.cons ⟨rfl, rfl, fun d s => ?_⟩ .nil) <;> simp [backEy, forthExz]

theorem fst_HY (P : Par ℝ) (e : HA ℝ) : (fun c => (blochHwall P 1 0 1 0 e c).1) = gammaHYwall P fun c => (e c).1 := by
  unfold blochHwall gammaHYwall
  dsimp only
  rw [copies_fst _ _ (forall2_flatMap _ _ _ _ fun a => ?_), copies_fst _ _ (forall2_flatMap _ _ _ _ fun a => ?_)]
  all_goals refine .cons ⟨rfl, rfl, fun d s => ?_⟩ (.cons ⟨rfl, rfl, fun d s => ?_⟩ .nil) <;> simp [forthHy, backHxz]

/-- **C173**: at the Γ point a run of the triangular lattice with the real arrays alone is the real part of the run with phases. -/
theorem gamma_bloch (P : Par ℝ) (s : EA ℝ × HA ℝ) (t : ℕ) :
    realSt ((propagateTri P 0 0)^[t] s) = (propagateTriGamma P)^[t] (realSt s) := by
  induction t generalizing s with
  | zero => rfl
  | succ t ih =>
    rw [Function.iterate_succ_apply, Function.iterate_succ_apply, ih]
    congr 1
    unfold realSt propagateTri propagateTriGamma
    simp only [mul_zero, zero_mul, add_zero, Real.cos_zero, Real.sin_zero, fst_EX, fst_EY, fst_HX, fst_HY]
    have h1 : ∀ (h : HA ℝ) (e : EA ℝ), (fun c => (loopsE P h e c).1) = sweep (stepE P fun d => (h d).1) (cells P) fun d => (e d).1 :=
      fun _ _ => rfl
    have h2 : ∀ (e : EA ℝ) (h : HA ℝ), (fun c => (loopsH P e h c).1) = sweep (stepH P fun d => (e d).1) (cells P) fun d => (h d).1 :=
      fun _ _ => rfl
    rw [h1, h2, fst_EY, fst_EX, h1]

/-- The materials of the crystal. -/
def bulkR (P : Par ℝ) (U : ℤ) : Par ℝ :=
  { P with
    position := fun c => P.position (cellOf P.isize P.jsize U c)
    epsilonx := fun c => P.epsilonx (cellOf P.isize P.jsize U c)
    epsilony := fun c => P.epsilony (cellOf P.isize P.jsize U c)
    epsilonz := fun c => P.epsilonz (cellOf P.isize P.jsize U c)
    mepsilon := fun c => P.mepsilon (cellOf P.isize P.jsize U c)
    momega := fun c => P.momega (cellOf P.isize P.jsize U c)
    mgamma := fun c => P.mgamma (cellOf P.isize P.jsize U c)
    dPx := fun c => P.dPx (cellOf P.isize P.jsize U c)
    dPy := fun c => P.dPy (cellOf P.isize P.jsize U c)
    dPz := fun c => P.dPz (cellOf P.isize P.jsize U c)
    dPx_old := fun c => P.dPx_old (cellOf P.isize P.jsize U c)
    dPy_old := fun c => P.dPy_old (cellOf P.isize P.jsize U c)
    dPz_old := fun c => P.dPz_old (cellOf P.isize P.jsize U c)
    ddx := fun c => P.ddx (cellOf P.isize P.jsize U c)
    ddy := fun c => P.ddy (cellOf P.isize P.jsize U c)
    ddz := fun c => P.ddz (cellOf P.isize P.jsize U c)
    aax := fun _ => P.aax 1
    aay := fun _ => P.aay 1
    bbx := fun _ => P.bbx 1
    bby := fun _ => P.bby 1
    ccx := fun _ => P.ccx 1
    ccy := fun _ => P.ccy 1
    eex := fun _ => P.eex 1
    eey := fun _ => P.eey 1
    ffx := fun _ => P.ffx 1
    ffy := fun _ => P.ffy 1
    ggx := fun _ => P.ggx 1
    ggy := fun _ => P.ggy 1
    hhx := fun _ => P.hhx 1
    hhy := fun _ => P.hhy 1
    iix := fun _ => P.iix 1
    iiy := fun _ => P.iiy 1
    jjx := fun _ => P.jjx 1
    jjy := fun _ => P.jjy 1
    kkx := fun _ => P.kkx 1
    kky := fun _ => P.kky 1
    llx := fun _ => P.llx 1
    lly := fun _ => P.lly 1 }


theorem bulk_eq (P : Par ℝ) (U : ℤ) : bulk P U = complexPar (bulkR P U) := rfl

/-- Real arrays as complex ones. -/
def liftSt (s : St ℝ) : EA ℝ × HA ℝ := (fun c => (s.1 c, ⟨0, 0, 0, 0, 0, 0, 0, 0, 0⟩), fun c => (s.2 c, ⟨0, 0, 0, 0, 0, 0⟩))

/-- The field of the crystal: that of the unit cell, repeated along the lattice. -/
def latE (P : Par ℝ) (U : ℤ) (e : Ix → EF ℝ) (c : Ix) : EF ℝ := e (cellOf P.isize P.jsize U c)

/-- The same for the magnetic field. -/
def latH (P : Par ℝ) (U : ℤ) (h : Ix → HF ℝ) (c : Ix) : HF ℝ := h (cellOf P.isize P.jsize U c)

theorem cx_fst {a b a' b' : ℝ} (h : cx a b = cx a' b') : a = a' := by
  have := congrArg Complex.re h
  simpa [cx] using this

theorem combE_fst {v w : EF ℝ × EF ℝ} (h : combE v = combE w) : v.1 = w.1 := by
  obtain ⟨⟨a1, a2, a3, a4, a5, a6, a7, a8, a9⟩, v2⟩ := v
  obtain ⟨⟨b1, b2, b3, b4, b5, b6, b7, b8, b9⟩, w2⟩ := w
  simp only [combE, EF.mk.injEq] at h
  obtain ⟨h1, h2, h3, h4, h5, h6, h7, h8, h9⟩ := h
  simp only [EF.mk.injEq]
  exact ⟨cx_fst h1, cx_fst h2, cx_fst h3, cx_fst h4, cx_fst h5, cx_fst h6, cx_fst h7, cx_fst h8, cx_fst h9⟩

theorem combH_fst {v w : HF ℝ × HF ℝ} (h : combH v = combH w) : v.1 = w.1 := by
  obtain ⟨⟨a1, a2, a3, a4, a5, a6⟩, v2⟩ := v
  obtain ⟨⟨b1, b2, b3, b4, b5, b6⟩, w2⟩ := w
  simp only [combH, HF.mk.injEq] at h
  obtain ⟨h1, h2, h3, h4, h5, h6⟩ := h
  simp only [HF.mk.injEq]
  exact ⟨cx_fst h1, cx_fst h2, cx_fst h3, cx_fst h4, cx_fst h5, cx_fst h6⟩

theorem phase_one (I J U : ℤ) (c : Ix) : phaseOf I J U 0 0 c = 1 := by
  simp [phaseOf, blochPhase]

theorem crystalE_gamma (I J U : ℤ) (e : EA ℝ) (c : Ix) : crystalE I J U 0 0 e c = combE (e (cellOf I J U c)) := by
  unfold crystalE
  rw [phase_one]
  simp [smulE]

theorem crystalH_gamma (I J U : ℤ) (h : HA ℝ) (c : Ix) : crystalH I J U 0 0 h c = combH (h (cellOf I J U c)) := by
  unfold crystalH
  rw [phase_one]
  simp [smulH]

/-- The boundary values of the magnetic arrays that the electric updates read are those of the crystal. -/
def SyncG (P : Par ℝ) (U : ℤ) (h : Ix → HF ℝ) : Prop :=
  (∀ j k, 1 ≤ j → j ≤ P.jsize → 1 ≤ k → k < P.pksize →
    (h (0, j, k)).y = (latH P U h (0, j, k)).y ∧ (h (0, j, k)).z = (latH P U h (0, j, k)).z) ∧
  ∀ i k, 1 ≤ i → i ≤ P.isize → 1 ≤ k → k < P.pksize →
    (h (i, 0, k)).x = (latH P U h (i, 0, k)).x ∧ (h (i, 0, k)).z = (latH P U h (i, 0, k)).z

theorem sync_lift (P : Par ℝ) (U : ℤ) (s : St ℝ) : SyncG P U s.2 → SyncH P U 0 0 (liftSt s).2 := by
  intro h
  unfold SyncG at h
  unfold SyncH
  simp only [crystalH_gamma, combH, liftSt]
  refine ⟨fun j k h1 h2 h3 h4 => ?_, fun i k h1 h2 h3 h4 => ?_⟩
  · obtain ⟨a, b⟩ := h.1 j k h1 h2 h3 h4
    rw [a, b]
    exact ⟨rfl, rfl⟩
  · obtain ⟨a, b⟩ := h.2 i k h1 h2 h3 h4
    rw [a, b]
    exact ⟨rfl, rfl⟩

theorem sync_fst (P : Par ℝ) (U : ℤ) (h : HA ℝ) : SyncH P U 0 0 h → SyncG P U fun c => (h c).1 := by
  intro H
  unfold SyncH at H
  unfold SyncG
  simp only [crystalH_gamma, combH] at H
  refine ⟨fun j k h1 h2 h3 h4 => ?_, fun i k h1 h2 h3 h4 => ?_⟩
  · obtain ⟨a, b⟩ := H.1 j k h1 h2 h3 h4
    exact ⟨cx_fst a, cx_fst b⟩
  · obtain ⟨a, b⟩ := H.2 i k h1 h2 h3 h4
    exact ⟨cx_fst a, cx_fst b⟩

/-- **C173**: for an even number of cells along `x`, a step at the Γ point is the step of the unbounded crystal with the triangular
lattice, and the boundary values stay those of the crystal. -/
theorem gamma_tri_partial (P : Par ℝ) (hs : BlochSized P) (hu : Uniform P) (hm : NoMolecule P) (U : ℤ) (hU : P.isize = 2 * U) (s : St ℝ)
    (hh : SyncG P U s.2) :
    (∀ i j k, 1 ≤ k ∧ k < P.pksize →
      latE P U (propagateTriGamma P s).1 (i, j, k) = stepE (bulkR P U) (latH P U s.2) (i, j, k) (latE P U s.1 (i, j, k)) ∧
      latH P U (propagateTriGamma P s).2 (i, j, k) =
        stepH (bulkR P U) (latE P U (propagateTriGamma P s).1) (i, j, k) (latH P U s.2 (i, j, k))) ∧
    SyncG P U (propagateTriGamma P s).2 := by
  obtain ⟨h1, h2⟩ := tri_step_partial P 0 0 hs hu hm U hU (liftSt s) (by simpa using sync_lift P U s hh)
  have hg : realSt (propagateTri P 0 0 (liftSt s)) = propagateTriGamma P s := gamma_bloch P (liftSt s) 1
  rw [← hg]
  simp only [zero_div, add_zero] at h1 h2
  refine ⟨fun i j k hk => ?_, sync_fst P U _ h2⟩
  obtain ⟨a, b⟩ := h1 i j k hk
  simp only [crystalE_gamma] at a b
  have eH : ∀ h : HA ℝ, crystalH P.isize P.jsize U 0 0 h = fun d => combH (h (cellOf P.isize P.jsize U d)) :=
    fun h => funext fun d => crystalH_gamma _ _ _ h d
  have eE : ∀ e : EA ℝ, crystalE P.isize P.jsize U 0 0 e = fun d => combE (e (cellOf P.isize P.jsize U d)) :=
    fun e => funext fun d => crystalE_gamma _ _ _ e d
  rw [eH, bulk_eq] at a
  rw [eH, eH, eE, bulk_eq] at b
  constructor
  · rw [← stepE_complex_partial (bulkR P U) (fun d => (liftSt s).2 (cellOf P.isize P.jsize U d)) (i, j, k)
      ((liftSt s).1 (cellOf P.isize P.jsize U (i, j, k))) (fun hp => hm _ hp)] at a
    exact combE_fst a
  · have b' := b.trans (stepH_complex (bulkR P U) (fun d => (propagateTri P 0 0 (liftSt s)).1 (cellOf P.isize P.jsize U d)) (i, j, k)
      ((liftSt s).2 (cellOf P.isize P.jsize U (i, j, k)))).symm
    exact combH_fst b'

/-- **C173**: for an odd number of cells along `x` the boundary value above the first column is never written. -/
theorem gamma_odd_fails (P : Par ℝ) (hs : BlochSized P) (U : ℤ) (hU : P.isize = 2 * U + 1) (hU1 : 1 ≤ U) (k : ℤ) (s : St ℝ) (t : ℕ) :
    ((propagateTriGamma P)^[t] s).1 (1, P.jsize + 1, k) = s.1 (1, P.jsize + 1, k) := by
  have hg : realSt ((propagateTri P 0 0)^[t] (liftSt s)) = (propagateTriGamma P)^[t] s := gamma_bloch P (liftSt s) t
  rw [← hg]
  exact congrArg Prod.fst (tri_odd_fails P 0 0 hs U hU hU1 k (liftSt s) t)

/-- Every step from fields without magnetic part is that of the crystal. -/
example (e : Ix → EF ℝ) (t : ℕ) : SyncG (blochBox 4) 2 ((propagateTriGamma (blochBox 4))^[t] (e, fun _ => ⟨0, 0, 0, 0, 0, 0⟩)).2 := by
  obtain ⟨h1, h2, h3⟩ := blochBox_ok 4 (by norm_num)
  induction t with
  | zero => exact ⟨fun _ _ _ _ _ _ => ⟨rfl, rfl⟩, fun _ _ _ _ _ _ => ⟨rfl, rfl⟩⟩
  | succ t ih =>
    rw [Function.iterate_succ_apply']
    exact (gamma_tri_partial _ h1 h2 h3 2 rfl _ ih).2

end OpenMS.Fdtd
