import Verif.Model.FdtdSource
import Verif.Props.Incoherent
import Mathlib.Analysis.SpecialFunctions.Trigonometric.ArctanDeriv
import Mathlib.Analysis.SpecialFunctions.Complex.LogDeriv
import Mathlib.MeasureTheory.Integral.ExpDecay
import Mathlib.Analysis.SpecialFunctions.ImproperIntegrals

/-!
# C164: sources of the Maxwell solver

Each source adds equal parts to the stored values around its node and nothing elsewhere; a minus sign in the component
negates all parts.  A plane wave has the phase of the place of each stored value, and the magnetic field is `sqrt(eo / uo)`
times the electric one.  The imaginary `Hy` of the Gaussian functions is different at one point.  The Gaussian beam has the
profile of a beam towards `-z` with its waist at `z_c`.
-/

namespace OpenMS.FdtdSource

open OpenMS.Incoherent (Node add add_apply gaussAmp iGaussAmp lorentzAmp iLorentzAmp)

/-! ### Single sources -/

/-- Twice the place of the component within its cell. -/
def place : Comp → Node
  | .Ex => (1, 0, 0)
  | .Ey => (0, 1, 0)
  | .Ez => (0, 0, 1)
  | .Hx => (0, 1, 1)
  | .Hy => (1, 0, 1)
  | .Hz => (1, 1, 0)

/-- The stored value `q` of the component is at most half a cell away from the node `p` in each direction in which the
component is displaced, and at its coordinate in the others. -/
def Near (c : Comp) (p q : Node) : Prop :=
  |2 * q.1 + (place c).1 - 2 * p.1| ≤ (place c).1 ∧ |2 * q.2.1 + (place c).2.1 - 2 * p.2.1| ≤ (place c).2.1 ∧
    |2 * q.2.2 + (place c).2.2 - 2 * p.2.2| ≤ (place c).2.2

instance (c : Comp) (p q : Node) : Decidable (Near c p q) := by unfold Near; infer_instance

/-- The part for one of the values around the node. -/
noncomputable def share (kind : Kind) (pulse : Pulse) (c : Comp) (Z : ℝ) : ℝ :=
  match c with
  | .Ex | .Ey | .Ez => 1 / 2
  | .Hx | .Hy | .Hz => if kind = .dipole ∨ (kind = .line ∧ pulse = .lorentz) then 1 / 4 else Z / 4

/-- The sum of the parts at one point. -/
noncomputable def contrib (kind : Kind) (pulse : Pulse) (c : Comp) (neg im : Bool) (Z : ℝ) (p : Node) (v : ℝ) (q : Node) : ℝ :=
  ((shifts c).map fun d => if Allowed kind p d ∧ q = (p.1 - d.1, p.2.1 - d.2.1, p.2.2 - d.2.2) then
    v * factor kind pulse c neg im Z d else 0).sum

theorem put_apply (kind : Kind) (pulse : Pulse) (c : Comp) (neg im : Bool) (Z : ℝ) (p : Node) (v : ℝ) (X : Node → ℝ) (q : Node) :
    put kind pulse c neg im Z p v X q = X q + contrib kind pulse c neg im Z p v q := by
  unfold put contrib
  generalize shifts c = l
  induction l generalizing X with
  | nil => simp
  | cons d l ih =>
    rw [List.foldl_cons, ih, List.map_cons, List.sum_cons]
    by_cases h : Allowed kind p d
    · rw [if_pos h, add_apply]
      simp only [h, true_and]
      ring
    · rw [if_neg h, if_neg (fun h' => h h'.1)]
      ring

theorem amplitude_neg (pulse : Pulse) (im : Bool) (w phase : ℝ) (t0 tdecay t : ℤ) :
    amplitude pulse im w (phase + Real.pi) t0 tdecay t = -amplitude pulse im w phase t0 tdecay t := by
  cases pulse <;> cases im <;>
    simp only [amplitude, gaussAmp, iGaussAmp, lorentzAmp, iLorentzAmp, ← add_assoc, Real.sin_add_pi, Real.cos_add_pi] <;>
    split_ifs <;> ring

/-- The amplitude of a source with the sign of its component. -/
noncomputable def signed (S : Setup) (im neg : Bool) (amp phase : ℝ) : ℝ :=
  (if neg then -1 else 1) * (amp * amplitude S.pulse im S.w phase S.t0 S.tdecay S.t)

theorem source_re (S : Setup) (kind : Kind) (c : Comp) (neg : Bool) (amp phase : ℝ) (p : Node) (F : Fields) (c' : Comp) (q : Node) :
    (source S kind c neg amp phase p F).1 c' q = F.1 c' q +
      if c' = c then contrib kind S.pulse c neg false S.Z p (signed S false neg amp phase) q else 0 := by
  unfold source signed
  by_cases h : c' = c
  · subst h
    rw [if_pos rfl]
    dsimp only
    rw [Function.update_self, put_apply]
    cases neg <;> simp [amplitude_neg]
  · rw [if_neg h, add_zero]
    dsimp only
    rw [Function.update_of_ne h]

theorem source_im (S : Setup) (hS : S.complex = true) (kind : Kind) (c : Comp) (neg : Bool) (amp phase : ℝ) (p : Node) (F : Fields)
    (c' : Comp) (q : Node) :
    (source S kind c neg amp phase p F).2 c' q = F.2 c' q +
      if c' = c then contrib kind S.pulse c neg true S.Z p (signed S true neg amp phase) q else 0 := by
  unfold source signed
  dsimp only
  rw [if_pos hS]
  by_cases h : c' = c
  · subst h
    rw [if_pos rfl, Function.update_self, put_apply]
    cases neg <;> simp [amplitude_neg]
  · rw [if_neg h, add_zero, Function.update_of_ne h]

theorem factor_share {kind : Kind} {pulse : Pulse} {c : Comp} {neg im : Bool} {Z : ℝ} {d : Node}
    (h : ¬(kind ≠ .dipole ∧ pulse = .gauss ∧ c = .Hy ∧ neg = false ∧ im = true)) :
    factor kind pulse c neg im Z d = share kind pulse c Z := by
  cases c <;> cases kind <;> cases pulse <;> cases neg <;> cases im <;> simp_all [factor, share, Comp.magnetic]

theorem contrib_near {kind : Kind} {pulse : Pulse} {c : Comp} {neg im : Bool} {Z v : ℝ} {p q : Node}
    (h : ¬(kind ≠ .dipole ∧ pulse = .gauss ∧ c = .Hy ∧ neg = false ∧ im = true))
    (hp : kind = .dipole ∨ (1 ≤ p.1 ∧ 1 ≤ p.2.1 ∧ 1 ≤ p.2.2)) :
    contrib kind pulse c neg im Z p v q = if Near c p q then v * share kind pulse c Z else 0 := by
  have ha : ∀ d, Allowed kind p d := fun d => hp.imp_right fun h => ⟨fun _ => h.1, fun _ => h.2.1, fun _ => h.2.2⟩
  unfold contrib
  simp only [factor_share h, ha, true_and]
  obtain ⟨p1, p2, p3⟩ := p
  obtain ⟨q1, q2, q3⟩ := q
  generalize v * share kind pulse c Z = x
  by_cases hn : Near c (p1, p2, p3) (q1, q2, q3)
  · rw [if_pos hn]
    cases c <;> simp only [Near, place, abs_le] at hn <;> simp only [shifts, List.map_cons, List.map_nil, List.sum_cons, List.sum_nil, Prod.mk.injEq]
    · rcases (by omega : q1 = p1 ∨ q1 = p1 - 1) with h1 | h1
      · rw [if_pos (by omega), if_neg (by omega)]; ring
      · rw [if_neg (by omega), if_pos (by omega)]; ring
    · rcases (by omega : q2 = p2 ∨ q2 = p2 - 1) with h1 | h1
      · rw [if_pos (by omega), if_neg (by omega)]; ring
      · rw [if_neg (by omega), if_pos (by omega)]; ring
    · rcases (by omega : q3 = p3 ∨ q3 = p3 - 1) with h1 | h1
      · rw [if_pos (by omega), if_neg (by omega)]; ring
      · rw [if_neg (by omega), if_pos (by omega)]; ring
    · rcases (by omega : q2 = p2 ∨ q2 = p2 - 1) with h1 | h1 <;> rcases (by omega : q3 = p3 ∨ q3 = p3 - 1) with h2 | h2
      · rw [if_pos (by omega), if_neg (by omega), if_neg (by omega), if_neg (by omega)]; ring
      · rw [if_neg (by omega), if_neg (by omega), if_pos (by omega), if_neg (by omega)]; ring
      · rw [if_neg (by omega), if_pos (by omega), if_neg (by omega), if_neg (by omega)]; ring
      · rw [if_neg (by omega), if_neg (by omega), if_neg (by omega), if_pos (by omega)]; ring
    · rcases (by omega : q1 = p1 ∨ q1 = p1 - 1) with h1 | h1 <;> rcases (by omega : q3 = p3 ∨ q3 = p3 - 1) with h2 | h2
      · rw [if_pos (by omega), if_neg (by omega), if_neg (by omega), if_neg (by omega)]; ring
      · rw [if_neg (by omega), if_pos (by omega), if_neg (by omega), if_neg (by omega)]; ring
      · rw [if_neg (by omega), if_neg (by omega), if_pos (by omega), if_neg (by omega)]; ring
      · rw [if_neg (by omega), if_neg (by omega), if_neg (by omega), if_pos (by omega)]; ring
    · rcases (by omega : q1 = p1 ∨ q1 = p1 - 1) with h1 | h1 <;> rcases (by omega : q2 = p2 ∨ q2 = p2 - 1) with h2 | h2
      · rw [if_pos (by omega), if_neg (by omega), if_neg (by omega), if_neg (by omega)]; ring
      · rw [if_neg (by omega), if_neg (by omega), if_pos (by omega), if_neg (by omega)]; ring
      · rw [if_neg (by omega), if_pos (by omega), if_neg (by omega), if_neg (by omega)]; ring
      · rw [if_neg (by omega), if_neg (by omega), if_neg (by omega), if_pos (by omega)]; ring
  · rw [if_neg hn]
    cases c <;> simp only [Near, place, abs_le] at hn <;> simp only [shifts, List.map_cons, List.map_nil, List.sum_cons, List.sum_nil, Prod.mk.injEq]
    iterate 3 rw [if_neg (by omega), if_neg (by omega)]; ring
    iterate 3 rw [if_neg (by omega), if_neg (by omega), if_neg (by omega), if_neg (by omega)]; ring

/-- **C164**: a source adds equal parts of its amplitude to all values of its component around its node, with the sign of the
component, and changes nothing else. -/
theorem source_spec (S : Setup) (kind : Kind) (c : Comp) (neg : Bool) (amp phase : ℝ) (p : Node) (F : Fields) (c' : Comp) (q : Node)
    (hp : kind = .dipole ∨ (1 ≤ p.1 ∧ 1 ≤ p.2.1 ∧ 1 ≤ p.2.2)) :
    (source S kind c neg amp phase p F).1 c' q = F.1 c' q + if c' = c ∧ Near c p q then
      (if neg then -1 else 1) * amp * amplitude S.pulse false S.w phase S.t0 S.tdecay S.t * share kind S.pulse c S.Z else 0 := by
  rw [source_re, contrib_near (by simp) hp]
  by_cases h1 : c' = c <;> by_cases h2 : Near c p q <;> simp [h1, h2, signed, mul_assoc]

/-- A single `-Hz` dipole: the value at the node gets a quarter. -/
example (S : Setup) : (source S .dipole .Hz true 2 0 (3, 4, 5) (fun _ _ => 0, fun _ _ => 0)).1 .Hz (3, 4, 5) =
    -2 * amplitude S.pulse false S.w 0 S.t0 S.tdecay S.t / 4 := by
  rw [source_spec _ _ _ _ _ _ _ _ _ _ (Or.inl rfl), if_pos ⟨rfl, by simp [Near, place]⟩]
  simp [share]
  ring

/-- **C164**: the same for the imaginary fields, except for `Hy` in the Gaussian functions for beams and lines. -/
theorem source_imag_partial (S : Setup) (hS : S.complex = true) (kind : Kind) (c : Comp) (neg : Bool) (amp phase : ℝ) (p : Node)
    (F : Fields) (c' : Comp) (q : Node) (hp : kind = .dipole ∨ (1 ≤ p.1 ∧ 1 ≤ p.2.1 ∧ 1 ≤ p.2.2))
    (h : ¬(kind ≠ .dipole ∧ S.pulse = .gauss ∧ c = .Hy ∧ neg = false)) :
    (source S kind c neg amp phase p F).2 c' q = F.2 c' q + if c' = c ∧ Near c p q then
      (if neg then -1 else 1) * amp * amplitude S.pulse true S.w phase S.t0 S.tdecay S.t * share kind S.pulse c S.Z else 0 := by
  rw [source_im S hS, contrib_near (fun h' => h ⟨h'.1, h'.2.1, h'.2.2.1, h'.2.2.2.1⟩) hp]
  by_cases h1 : c' = c <;> by_cases h2 : Near c p q <;> simp [h1, h2, signed, mul_assoc]

/-- **C164**: real calculations leave the imaginary fields alone. -/
theorem source_real (S : Setup) (hS : S.complex = false) (kind : Kind) (c : Comp) (neg : Bool) (amp phase : ℝ) (p : Node) (F : Fields) :
    (source S kind c neg amp phase p F).2 = F.2 := by
  simp [source, hS]

/-- **C164**: a minus sign in the component is not a change of sign for the imaginary `Hy` of the Gaussian functions for beams and
lines: `Hy` and `-Hy` together leave a field, unless it is zero or `Z` is `0` or `1`. -/
theorem sign_fails (S : Setup) (hS : S.complex = true) (hg : S.pulse = .gauss) (kind : Kind) (hk : kind ≠ .dipole) (amp phase : ℝ)
    (p : Node) (F : Fields) :
    (source S kind .Hy true amp phase p (source S kind .Hy false amp phase p F)).2 .Hy p - F.2 .Hy p =
        amp * amplitude .gauss true S.w phase S.t0 S.tdecay S.t * (S.Z * S.Z - S.Z) / 4 ∧
      ((source S kind .Hy true amp phase p (source S kind .Hy false amp phase p F)).2 .Hy p = F.2 .Hy p ↔
        amp = 0 ∨ amplitude .gauss true S.w phase S.t0 S.tdecay S.t = 0 ∨ S.Z = 0 ∨ S.Z = 1) := by
  have h0 : Allowed kind p (0, 0, 0) := Or.inr ⟨by simp, by simp, by simp⟩
  have hc : ∀ neg v, contrib kind .gauss .Hy neg true S.Z p v p = v * factor kind .gauss .Hy neg true S.Z (0, 0, 0) := by
    intro neg v
    obtain ⟨p1, p2, p3⟩ := p
    simp only [contrib, shifts, List.map_cons, List.map_nil, List.sum_cons, List.sum_nil, Prod.mk.injEq]
    rw [if_pos ⟨h0, by omega⟩, if_neg (by omega), if_neg (by omega), if_neg (by omega)]
    ring
  have hf : factor kind .gauss .Hy false true S.Z (0, 0, 0) = S.Z * S.Z / 4 := by simp [factor, Comp.magnetic, hk]
  have ht : factor kind .gauss .Hy true true S.Z (0, 0, 0) = S.Z / 4 := by simp [factor, Comp.magnetic, hk]
  have key : (source S kind .Hy true amp phase p (source S kind .Hy false amp phase p F)).2 .Hy p - F.2 .Hy p =
        amp * amplitude .gauss true S.w phase S.t0 S.tdecay S.t * (S.Z * S.Z - S.Z) / 4 := by
    rw [source_im S hS, source_im S hS, if_pos rfl, if_pos rfl, hg, hc, hc, hf, ht]
    simp only [signed, hg]
    simp
    ring
  refine ⟨key, ?_⟩
  rw [← sub_eq_zero, key]
  have e : S.Z * S.Z - S.Z = S.Z * (S.Z - 1) := by ring
  rw [e]
  simp [or_assoc, sub_eq_zero]

/-! ### Planes -/

theorem cells_single (pi pj a b : ℕ) (P : ℕ × ℕ → Prop) [DecidablePred P] (f : ℕ × ℕ → ℝ) (hP : ∀ c, P c ↔ c = (a, b)) :
    ((cells pi pj).map fun c => if P c then f c else 0).sum = if a ≤ pi ∧ b ≤ pj then f (a, b) else 0 := by
  have h1 : ∀ (n : ℕ) (g : ℕ → ℝ), ((List.range n).map g).sum = ∑ i ∈ Finset.range n, g i := by
    intro n g
    induction n with
    | zero => simp
    | succ n ih => rw [List.range_succ, List.map_append, List.sum_append, ih, Finset.sum_range_succ]; simp
  have h2 : ∀ (l : List ℕ) (g : ℕ × ℕ → ℝ), ((l.flatMap fun i => (List.range (pj + 1)).map fun j => (i, j)).map g).sum =
      (l.map fun i => ((List.range (pj + 1)).map fun j => g (i, j)).sum).sum := by
    intro l g
    induction l with
    | nil => simp
    | cons x l ih => rw [List.flatMap_cons, List.map_append, List.sum_append, ih, List.map_map]; rfl
  unfold cells
  rw [h2, h1]
  simp only [h1, hP, Prod.mk.injEq]
  rw [Finset.sum_congr rfl (g := fun i => if i = a then (if b < pj + 1 then f (a, b) else 0) else 0)]
  · rw [Finset.sum_ite_eq']
    simp only [Finset.mem_range, Nat.lt_succ_iff]
    by_cases h3 : a ≤ pi <;> by_cases h4 : b ≤ pj <;> simp [h3, h4]
  · intro i _
    by_cases hi : i = a
    · simp only [hi, true_and, if_true]
      rw [Finset.sum_ite_eq']
      simp
    · simp [hi]

theorem plane_re (S : Setup) (e h : Comp × Bool) (amp phase : ℕ × ℕ → ℝ) (pisize pjsize k : ℕ) (F : Fields) (c : Comp) (q : Node) :
    (plane S e h amp phase pisize pjsize k F).1 c q = F.1 c q + ((cells pisize pjsize).map fun a =>
      (if c = e.1 then contrib .beam S.pulse e.1 e.2 false S.Z (a.1, a.2, k) (signed S false e.2 (amp a) (phase a)) q else 0) +
      if c = h.1 then contrib .beam S.pulse h.1 h.2 false S.Z (a.1, a.2, k) (signed S false h.2 (amp a) (phase a)) q else 0).sum := by
  unfold plane
  generalize cells pisize pjsize = l
  induction l generalizing F with
  | nil => simp
  | cons a l ih =>
    rw [List.foldl_cons, ih, source_re, source_re, List.map_cons, List.sum_cons]
    ring

theorem plane_im (S : Setup) (hS : S.complex = true) (e h : Comp × Bool) (amp phase : ℕ × ℕ → ℝ) (pisize pjsize k : ℕ) (F : Fields)
    (c : Comp) (q : Node) :
    (plane S e h amp phase pisize pjsize k F).2 c q = F.2 c q + ((cells pisize pjsize).map fun a =>
      (if c = e.1 then contrib .beam S.pulse e.1 e.2 true S.Z (a.1, a.2, k) (signed S true e.2 (amp a) (phase a)) q else 0) +
      if c = h.1 then contrib .beam S.pulse h.1 h.2 true S.Z (a.1, a.2, k) (signed S true h.2 (amp a) (phase a)) q else 0).sum := by
  unfold plane
  generalize cells pisize pjsize = l
  induction l generalizing F with
  | nil => simp
  | cons a l ih =>
    rw [List.foldl_cons, ih, source_im S hS, source_im S hS, List.map_cons, List.sum_cons]
    ring

theorem sum_ex (S : Setup) (im neg : Bool) (amp phase : ℕ × ℕ → ℝ) (pisize pjsize k p j : ℕ) :
    ((cells pisize pjsize).map fun a => contrib .beam S.pulse .Ex neg im S.Z (a.1, a.2, k) (signed S im neg (amp a) (phase a))
      ((p, j, k) : ℤ × ℤ × ℤ)).sum =
    (if p ≤ pisize ∧ j ≤ pjsize then signed S im neg (amp (p, j)) (phase (p, j)) / 2 else 0) +
      if p + 1 ≤ pisize ∧ j ≤ pjsize then signed S im neg (amp (p + 1, j)) (phase (p + 1, j)) / 2 else 0 := by
  rw [← cells_single pisize pjsize p j (fun a => a = (p, j)) (fun a => signed S im neg (amp a) (phase a) / 2) (fun _ => Iff.rfl),
    ← cells_single pisize pjsize (p + 1) j (fun a => a = (p + 1, j)) (fun a => signed S im neg (amp a) (phase a) / 2) (fun _ => Iff.rfl),
    ← List.sum_map_add]
  congr 1
  apply List.map_congr_left
  rintro ⟨a, b⟩ _
  have f : ∀ d, factor .beam S.pulse .Ex neg im S.Z d = 1 / 2 := fun d => by simp [factor, Comp.magnetic]
  simp only [contrib, shifts, List.map_cons, List.map_nil, List.sum_cons, List.sum_nil, Prod.mk.injEq, Allowed, f]
  rw [add_zero]
  congr 1
  · exact if_congr (by simp; omega) (by ring) rfl
  · exact if_congr (by simp; omega) (by ring) rfl

theorem sum_hy (S : Setup) (im neg : Bool) (amp phase : ℕ × ℕ → ℝ) (pisize pjsize k p j : ℕ) (s : ℤ)
    (hs : s = 0 ∨ (s = 1 ∧ 1 ≤ k)) :
    ((cells pisize pjsize).map fun a => contrib .beam S.pulse .Hy neg im S.Z (a.1, a.2, k) (signed S im neg (amp a) (phase a))
      ((p, j, k - s) : ℤ × ℤ × ℤ)).sum =
    (if p ≤ pisize ∧ j ≤ pjsize then signed S im neg (amp (p, j)) (phase (p, j)) * factor .beam S.pulse .Hy neg im S.Z (0, 0, s) else 0) +
      if p + 1 ≤ pisize ∧ j ≤ pjsize then signed S im neg (amp (p + 1, j)) (phase (p + 1, j)) * (S.Z / 4) else 0 := by
  rw [← cells_single pisize pjsize p j (fun a => a = (p, j))
      (fun a => signed S im neg (amp a) (phase a) * factor .beam S.pulse .Hy neg im S.Z (0, 0, s)) (fun _ => Iff.rfl),
    ← cells_single pisize pjsize (p + 1) j (fun a => a = (p + 1, j)) (fun a => signed S im neg (amp a) (phase a) * (S.Z / 4)) (fun _ => Iff.rfl),
    ← List.sum_map_add]
  congr 1
  apply List.map_congr_left
  rintro ⟨a, b⟩ _
  have f2 : factor .beam S.pulse .Hy neg im S.Z (1, 0, 0) = S.Z / 4 := by simp [factor, Comp.magnetic]
  have f3 : factor .beam S.pulse .Hy neg im S.Z (1, 0, 1) = S.Z / 4 := by simp [factor, Comp.magnetic]
  simp only [contrib, shifts, List.map_cons, List.map_nil, List.sum_cons, List.sum_nil, Prod.mk.injEq, Allowed, f2, f3]
  rcases hs with rfl | ⟨rfl, hk⟩
  · rw [if_neg (c := _ ∧ _ ∧ _ ∧ (k : ℤ) - 0 = k - 1) (by omega)]
    rw [if_neg (c := _ ∧ _ ∧ _ ∧ (k : ℤ) - 0 = k - 1) (by omega)]
    rw [zero_add, add_zero, add_zero]
    congr 1
    · exact if_congr (by simp; omega) rfl rfl
    · exact if_congr (by simp; omega) rfl rfl
  · rw [if_neg (c := _ ∧ _ ∧ _ ∧ (k : ℤ) - 1 = k - 0) (by omega)]
    rw [if_neg (c := _ ∧ _ ∧ _ ∧ (k : ℤ) - 1 = k - 0) (by omega)]
    rw [zero_add, zero_add, add_zero]
    congr 1
    · exact if_congr (by simp; omega) rfl rfl
    · exact if_congr (by simp; omega) rfl rfl

theorem amplitude_mean (pulse : Pulse) (im : Bool) (w a b : ℝ) (t0 tdecay t : ℤ) :
    amplitude pulse im w a t0 tdecay t + amplitude pulse im w b t0 tdecay t =
      2 * Real.cos ((b - a) / 2) * amplitude pulse im w ((a + b) / 2) t0 tdecay t := by
  have hs : ∀ x : ℝ, Real.sin (x + a) + Real.sin (x + b) = 2 * Real.cos ((b - a) / 2) * Real.sin (x + (a + b) / 2) := by
    intro x
    have e1 : x + a = (x + (a + b) / 2) - (b - a) / 2 := by ring
    have e2 : x + b = (x + (a + b) / 2) + (b - a) / 2 := by ring
    rw [e1, e2, Real.sin_sub, Real.sin_add (x + (a + b) / 2)]
    ring
  have hc : ∀ x : ℝ, Real.cos (x + a) + Real.cos (x + b) = 2 * Real.cos ((b - a) / 2) * Real.cos (x + (a + b) / 2) := by
    intro x
    have e1 : x + a = (x + (a + b) / 2) - (b - a) / 2 := by ring
    have e2 : x + b = (x + (a + b) / 2) + (b - a) / 2 := by ring
    rw [e1, e2, Real.cos_sub, Real.cos_add (x + (a + b) / 2)]
    ring
  cases pulse <;> cases im <;> simp only [amplitude, gaussAmp, iGaussAmp, lorentzAmp, iLorentzAmp] <;> split_ifs
  · linear_combination Real.exp (-1 * (((t - t0 : ℤ) : ℝ) / tdecay) ^ 2) * hs (w * t)
  · ring
  · linear_combination -Real.exp (-1 * (((t - t0 : ℤ) : ℝ) / tdecay) ^ 2) * hc (w * t)
  · ring
  · linear_combination hs (w * (t - t0 : ℤ))
  · linear_combination Real.exp (-((t - t0 : ℤ) : ℝ) / tdecay) * hs (w * (t - t0 : ℤ))
  · ring
  · linear_combination -hc (w * (t - t0 : ℤ))
  · linear_combination -Real.exp (-((t - t0 : ℤ) : ℝ) / tdecay) * hc (w * (t - t0 : ℤ))
  · ring

/-- Phase of a plane wave at the place with the coordinates `x`, `y`, in cells. -/
noncomputable def wavePhase (kx ky : ℝ) (lx ly : ℤ) (x y : ℝ) : ℝ := 2 * Real.pi * (kx * x / lx + ky * y / ly)

theorem signed_mean (S : Setup) (im neg : Bool) (kx ky : ℝ) (lx ly : ℤ) (p j : ℕ) :
    signed S im neg 1 (blochPhase kx ky lx ly (p, j)) + signed S im neg 1 (blochPhase kx ky lx ly (p + 1, j)) =
      2 * ((if neg then -1 else 1) * Real.cos (Real.pi * kx / lx) *
        amplitude S.pulse im S.w (wavePhase kx ky lx ly (p + 1 / 2) j) S.t0 S.tdecay S.t) := by
  have h := amplitude_mean S.pulse im S.w (blochPhase kx ky lx ly (p, j)) (blochPhase kx ky lx ly (p + 1, j)) S.t0 S.tdecay S.t
  have e1 : (blochPhase kx ky lx ly (p + 1, j) - blochPhase kx ky lx ly (p, j)) / 2 = Real.pi * kx / lx := by
    simp only [blochPhase]
    push_cast
    ring
  have e2 : (blochPhase kx ky lx ly (p, j) + blochPhase kx ky lx ly (p + 1, j)) / 2 = wavePhase kx ky lx ly (p + 1 / 2) j := by
    simp only [blochPhase, wavePhase]
    push_cast
    ring
  rw [e1, e2] at h
  simp only [signed]
  linear_combination (if neg then (-1 : ℝ) else 1) * h

/-- **C164**: the electric field of a plane wave has at each place the phase of this place (half a cell from the node). -/
theorem planewave_e (S : Setup) (hd : Comp × Bool) (hh : hd.1 = .Hy) (neg : Bool) (kx ky : ℝ) (lx ly : ℤ) (pisize pjsize k p j : ℕ)
    (F : Fields) (hp : p < pisize) (hj : j ≤ pjsize) :
    (plane S (.Ex, neg) hd (fun _ => 1) (blochPhase kx ky lx ly) pisize pjsize k F).1 .Ex (p, j, k) = F.1 .Ex (p, j, k) +
        (if neg then -1 else 1) * Real.cos (Real.pi * kx / lx) *
          amplitude S.pulse false S.w (wavePhase kx ky lx ly (p + 1 / 2) j) S.t0 S.tdecay S.t ∧
      (S.complex = true →
        (plane S (.Ex, neg) hd (fun _ => 1) (blochPhase kx ky lx ly) pisize pjsize k F).2 .Ex (p, j, k) = F.2 .Ex (p, j, k) +
        (if neg then -1 else 1) * Real.cos (Real.pi * kx / lx) *
          amplitude S.pulse true S.w (wavePhase kx ky lx ly (p + 1 / 2) j) S.t0 S.tdecay S.t) := by
  refine ⟨?_, fun hS => ?_⟩
  · rw [plane_re]
    simp only [hh, if_true, reduceCtorEq, if_false, add_zero]
    rw [sum_ex S false neg (fun _ => 1), if_pos ⟨by omega, hj⟩, if_pos ⟨by omega, hj⟩]
    linear_combination (1 / 2) * signed_mean S false neg kx ky lx ly p j
  · rw [plane_im S hS]
    simp only [hh, if_true, reduceCtorEq, if_false, add_zero]
    rw [sum_ex S true neg (fun _ => 1), if_pos ⟨by omega, hj⟩, if_pos ⟨by omega, hj⟩]
    linear_combination (1 / 2) * signed_mean S true neg kx ky lx ly p j

/-- A plane of five by four nodes. -/
example (S : Setup) : (plane S (.Ex, false) (.Hy, false) (fun _ => 1) (blochPhase 0 0 10 10) 4 3 7 (fun _ _ => 0, fun _ _ => 0)).1 .Ex
    ((2 : ℕ), (3 : ℕ), (7 : ℕ)) = amplitude S.pulse false S.w 0 S.t0 S.tdecay S.t := by
  rw [(planewave_e S (.Hy, false) rfl false 0 0 10 10 4 3 7 2 3 _ (by norm_num) (by norm_num)).1]
  simp [wavePhase]

/-- **C164**: the last column of the electric field gets only half of an amplitude. -/
theorem planewave_edge (S : Setup) (hd : Comp × Bool) (hh : hd.1 = .Hy) (neg : Bool) (kx ky : ℝ) (lx ly : ℤ) (pisize pjsize k j : ℕ)
    (F : Fields) (hj : j ≤ pjsize) :
    (plane S (.Ex, neg) hd (fun _ => 1) (blochPhase kx ky lx ly) pisize pjsize k F).1 .Ex (pisize, j, k) = F.1 .Ex (pisize, j, k) +
        (if neg then -1 else 1) * amplitude S.pulse false S.w (wavePhase kx ky lx ly pisize j) S.t0 S.tdecay S.t / 2 := by
  rw [plane_re]
  simp only [hh, if_true, reduceCtorEq, if_false, add_zero]
  rw [sum_ex S false neg (fun _ => 1), if_pos ⟨le_rfl, hj⟩, if_neg (by omega)]
  simp [signed, blochPhase, wavePhase]

/-- **C164**: the magnetic field of a plane wave, summed over the two layers beside the plane, is `sqrt(eo / uo)` times the electric
field, with the same phase; also for the imaginary fields, except for the Gaussian `Hy`. -/
theorem planewave_h_partial (S : Setup) (ed : Comp × Bool) (he : ed.1 = .Ex) (neg : Bool) (kx ky : ℝ) (lx ly : ℤ)
    (pisize pjsize k p j : ℕ) (F : Fields) (hp : p < pisize) (hj : j ≤ pjsize) (hk : 1 ≤ k) (s : ℤ) (hs : s = 0 ∨ s = 1) :
    (plane S ed (.Hy, neg) (fun _ => 1) (blochPhase kx ky lx ly) pisize pjsize k F).1 .Hy (p, j, k - s) = F.1 .Hy (p, j, k - s) +
        S.Z / 2 * ((if neg then -1 else 1) * Real.cos (Real.pi * kx / lx) *
          amplitude S.pulse false S.w (wavePhase kx ky lx ly (p + 1 / 2) j) S.t0 S.tdecay S.t) ∧
      (S.complex = true → (S.pulse = .lorentz ∨ neg = true) →
        (plane S ed (.Hy, neg) (fun _ => 1) (blochPhase kx ky lx ly) pisize pjsize k F).2 .Hy (p, j, k - s) = F.2 .Hy (p, j, k - s) +
        S.Z / 2 * ((if neg then -1 else 1) * Real.cos (Real.pi * kx / lx) *
          amplitude S.pulse true S.w (wavePhase kx ky lx ly (p + 1 / 2) j) S.t0 S.tdecay S.t)) := by
  have hs' : s = 0 ∨ (s = 1 ∧ 1 ≤ k) := hs.imp_right fun h => ⟨h, hk⟩
  refine ⟨?_, fun hS hx => ?_⟩
  · have f : factor .beam S.pulse .Hy neg false S.Z (0, 0, s) = S.Z / 4 := by simp [factor, Comp.magnetic]
    rw [plane_re]
    simp only [he, if_true, reduceCtorEq, if_false, zero_add]
    rw [sum_hy S false neg (fun _ => 1) _ _ _ _ _ _ s hs', if_pos ⟨by omega, hj⟩, if_pos ⟨by omega, hj⟩, f]
    linear_combination (S.Z / 4) * signed_mean S false neg kx ky lx ly p j
  · have f : factor .beam S.pulse .Hy neg true S.Z (0, 0, s) = S.Z / 4 := by
      rcases hx with hx | hx <;> simp [factor, Comp.magnetic, hx]
    rw [plane_im S hS]
    simp only [he, if_true, reduceCtorEq, if_false, zero_add]
    rw [sum_hy S true neg (fun _ => 1) _ _ _ _ _ _ s hs', if_pos ⟨by omega, hj⟩, if_pos ⟨by omega, hj⟩, f]
    linear_combination (S.Z / 4) * signed_mean S true neg kx ky lx ly p j

/-- **C164**: the imaginary `Hy` of a Gaussian plane wave has the right value in the layer `k` exactly when the amplitude at the node is
zero or `sqrt(eo / uo)` is `0` or `1`. -/
theorem planewave_h_fails (S : Setup) (hS : S.complex = true) (hg : S.pulse = .gauss) (ed : Comp × Bool) (he : ed.1 = .Ex) (kx ky : ℝ)
    (lx ly : ℤ) (pisize pjsize k p j : ℕ) (F : Fields) (hp : p < pisize) (hj : j ≤ pjsize) :
    (plane S ed (.Hy, false) (fun _ => 1) (blochPhase kx ky lx ly) pisize pjsize k F).2 .Hy (p, j, k) = F.2 .Hy (p, j, k) +
        S.Z / 2 * (Real.cos (Real.pi * kx / lx) *
          amplitude S.pulse true S.w (wavePhase kx ky lx ly (p + 1 / 2) j) S.t0 S.tdecay S.t) ↔
      amplitude S.pulse true S.w (wavePhase kx ky lx ly p j) S.t0 S.tdecay S.t = 0 ∨ S.Z = 0 ∨ S.Z = 1 := by
  have f : factor .beam S.pulse .Hy false true S.Z (0, 0, 0) = S.Z * S.Z / 4 := by simp [factor, Comp.magnetic, hg]
  have h := sum_hy S true false (fun _ => 1) (blochPhase kx ky lx ly) pisize pjsize k p j 0 (Or.inl rfl)
  rw [sub_zero, if_pos ⟨by omega, hj⟩, if_pos ⟨by omega, hj⟩, f] at h
  rw [plane_im S hS]
  simp only [he, if_true, reduceCtorEq, if_false, zero_add]
  rw [h, add_right_inj, ← sub_eq_zero]
  have m := signed_mean S true false kx ky lx ly p j
  have e : signed S true false 1 (blochPhase kx ky lx ly (p, j)) =
      amplitude S.pulse true S.w (wavePhase kx ky lx ly p j) S.t0 S.tdecay S.t := by simp [signed, blochPhase, wavePhase]
  simp only [Bool.false_eq_true, if_false, one_mul] at m
  rw [e] at m ⊢
  have key : amplitude S.pulse true S.w (wavePhase kx ky lx ly p j) S.t0 S.tdecay S.t * (S.Z * S.Z / 4) +
      signed S true false 1 (blochPhase kx ky lx ly (p + 1, j)) * (S.Z / 4) - S.Z / 2 * (Real.cos (Real.pi * kx / lx) *
          amplitude S.pulse true S.w (wavePhase kx ky lx ly (p + 1 / 2) j) S.t0 S.tdecay S.t) =
      amplitude S.pulse true S.w (wavePhase kx ky lx ly p j) S.t0 S.tdecay S.t * (S.Z * (S.Z - 1)) / 4 := by
    linear_combination (S.Z / 4) * m
  rw [key]
  simp [sub_eq_zero]

/-! ### `external_planewave` and lines -/

theorem external_aux (E : Comp) (Z Ext : ℝ) (k : ℕ) (l : List (ℕ × ℕ)) (F : Comp → Node → ℝ) (c : Comp) (q : Node) :
    (l.foldl (fun (F : Comp → Node → ℝ) (c : ℕ × ℕ) =>
    let F1 := if E = .Ex then
      let X := add (c.1, c.2, k) (Ext / 2) (F .Ex)
      Function.update F .Ex (if 0 < c.1 then add ((c.1 : ℤ) - 1, c.2, k) (Ext / 2) X else X)
    else F
    if E = .Hy then
      let X := add (c.1, c.2, k) (Ext / 2 * Z / 4) (F1 .Hy)
      Function.update F1 .Hy (if 0 < c.1 then add ((c.1 : ℤ) - 1, c.2, k) (Ext / 2 * Z / 4) X else X)
    else F1) F) c q = F c q + (l.map fun a => if c = E ∧ (E = .Ex ∨ E = .Hy) then
      (if q = ((a.1 : ℤ), (a.2 : ℤ), (k : ℤ)) then (if E = .Ex then Ext / 2 else Ext / 2 * Z / 4) else 0) +
      (if 0 < a.1 ∧ q = ((a.1 : ℤ) - 1, (a.2 : ℤ), (k : ℤ)) then (if E = .Ex then Ext / 2 else Ext / 2 * Z / 4) else 0) else 0).sum := by
  induction l generalizing F with
  | nil => simp
  | cons a l ih =>
    rw [List.foldl_cons, ih, List.map_cons, List.sum_cons, ← add_assoc]
    congr 1
    by_cases h1 : E = .Ex
    · subst h1
      by_cases hc : c = .Ex
      · subst hc
        by_cases ha : 0 < a.1 <;> simp [add_apply, ha, add_assoc]
      · simp [hc]
    · by_cases h2 : E = .Hy
      · subst h2
        by_cases hc : c = .Hy
        · subst hc
          by_cases ha : 0 < a.1 <;> simp [add_apply, ha, add_assoc]
        · simp [hc]
      · simp [h1, h2]

/-- **C164**: `external_planewave` for `Ex`: the field is added once at every place but the last column, which gets one half. -/
theorem external_partial (H : Comp) (Z Ext : ℝ) (pisize pjsize k p j : ℕ) (F : Comp → Node → ℝ) (hp : p ≤ pisize) (hj : j ≤ pjsize) :
    externalPlane .Ex H Z Ext pisize pjsize k F .Ex (p, j, k) =
      F .Ex (p, j, k) + if p < pisize then Ext else Ext / 2 := by
  unfold externalPlane
  rw [external_aux .Ex]
  simp only [true_and, true_or, if_true, List.sum_map_add]
  rw [cells_single pisize pjsize p j (fun c => ((p : ℤ), (j : ℤ), (k : ℤ)) = ((c.1 : ℤ), (c.2 : ℤ), (k : ℤ))) (fun _ => Ext / 2)
      (fun c => by
        obtain ⟨c1, c2⟩ := c
        simp only [Prod.mk.injEq]
        exact ⟨fun h => ⟨by omega, by omega⟩, fun h => ⟨by omega, by omega, trivial⟩⟩),
    cells_single pisize pjsize (p + 1) j (fun c => 0 < c.1 ∧ ((p : ℤ), (j : ℤ), (k : ℤ)) = ((c.1 : ℤ) - 1, (c.2 : ℤ), (k : ℤ))) (fun _ => Ext / 2)
      (fun c => by
        obtain ⟨c1, c2⟩ := c
        simp only [Prod.mk.injEq]
        exact ⟨fun h => ⟨by omega, by omega⟩, fun h => ⟨by omega, by omega, by omega, trivial⟩⟩), if_pos ⟨hp, hj⟩]
  by_cases h : p < pisize
  · rw [if_pos ⟨h, hj⟩, if_pos h]; ring
  · rw [if_neg (fun h' => h h'.1), if_neg h, add_zero]

/-- **C164**: the magnetic component is never used: `external_planewave` with `Ex` leaves every other component as it was, for all
values of `Hcomp`. -/
theorem external_fails (H : Comp) (Z Ext : ℝ) (pisize pjsize k : ℕ) (F : Comp → Node → ℝ) (c : Comp) (hc : c ≠ .Ex) :
    externalPlane .Ex H Z Ext pisize pjsize k F c = F c := by
  funext q
  unfold externalPlane
  rw [external_aux .Ex]
  simp [hc]

theorem line_re (S : Setup) (c : Comp) (neg : Bool) (phase : ℝ) (pjsize : ℕ) (i k : ℤ) (F : Fields) (c' : Comp) (q : Node) :
    (lineSource S c neg phase pjsize i k F).1 c' q = F.1 c' q + ((List.range (pjsize + 1)).map fun j : ℕ =>
      if c' = c then contrib .line S.pulse c neg false S.Z (i, j, k) (signed S false neg 1 phase) q else 0).sum := by
  unfold lineSource
  generalize List.range (pjsize + 1) = l
  induction l generalizing F with
  | nil => simp
  | cons a l ih =>
    rw [List.foldl_cons, ih, source_re, List.map_cons, List.sum_cons]
    ring

/-- **C164**: a line source for `Hy` adds the same value along the whole line, `sqrt(eo / uo) / 4` of the amplitude for the
Gaussian; the Lorentzian one has this value exactly when `sqrt(eo / uo)` is one or the amplitude is zero. -/
theorem line_fails (S : Setup) (neg : Bool) (phase : ℝ) (pjsize j : ℕ) (i k : ℤ) (F : Fields) (hj : j ≤ pjsize) :
    (lineSource S .Hy neg phase pjsize i k F).1 .Hy (i, j, k) = F.1 .Hy (i, j, k) +
        (if neg then -1 else 1) * amplitude S.pulse false S.w phase S.t0 S.tdecay S.t * (if S.pulse = .gauss then S.Z / 4 else 1 / 4) ∧
      (S.pulse = .lorentz → ((lineSource S .Hy neg phase pjsize i k F).1 .Hy (i, j, k) = F.1 .Hy (i, j, k) +
        (if neg then -1 else 1) * amplitude S.pulse false S.w phase S.t0 S.tdecay S.t * (S.Z / 4) ↔
        amplitude S.pulse false S.w phase S.t0 S.tdecay S.t = 0 ∨ S.Z = 1)) := by
  have key : (lineSource S .Hy neg phase pjsize i k F).1 .Hy (i, j, k) = F.1 .Hy (i, j, k) +
        (if neg then -1 else 1) * amplitude S.pulse false S.w phase S.t0 S.tdecay S.t * (if S.pulse = .gauss then S.Z / 4 else 1 / 4) := by
    rw [line_re]
    congr 1
    have h : ∀ a : ℕ, contrib .line S.pulse .Hy neg false S.Z (i, a, k) (signed S false neg 1 phase) (i, j, k) =
        if a = j then (if neg then -1 else 1) * amplitude S.pulse false S.w phase S.t0 S.tdecay S.t *
          (if S.pulse = .gauss then S.Z / 4 else 1 / 4) else 0 := by
      intro a
      simp only [contrib, shifts, List.map_cons, List.map_nil, List.sum_cons, List.sum_nil, Prod.mk.injEq, Allowed]
      have n1 : ¬k = k - 1 := by omega
      have n2 : ¬i = i - 1 := by omega
      simp only [n1, n2, and_false, false_and, if_false]
      have hf : factor .line S.pulse .Hy neg false S.Z (0, 0, 0) = if S.pulse = .gauss then S.Z / 4 else 1 / 4 := by
        cases S.pulse <;> simp [factor, Comp.magnetic]
      rw [hf, add_zero, add_zero, add_zero]
      by_cases ha : a = j
      · subst ha
        simp [signed]
      · have ha' : (j : ℤ) ≠ a := by omega
        simp [ha, ha']
    simp only [if_true, h]
    have h1 : ∀ (n : ℕ) (g : ℕ → ℝ), ((List.range n).map g).sum = ∑ i ∈ Finset.range n, g i := by
      intro n g
      induction n with
      | zero => simp
      | succ n ih => rw [List.range_succ, List.map_append, List.sum_append, ih, Finset.sum_range_succ]; simp
    rw [h1, Finset.sum_ite_eq', if_pos (Finset.mem_range.2 (by omega))]
  refine ⟨key, fun hl => ?_⟩
  rw [key, hl, add_right_inj]
  simp only [reduceCtorEq, if_false]
  have hn : (if neg then (-1 : ℝ) else 1) ≠ 0 := by cases neg <;> norm_num
  constructor
  · intro h
    by_contra h'
    push Not at h'
    have := mul_left_cancel₀ (mul_ne_zero hn h'.1) h
    exact h'.2 (by linarith)
  · rintro (h | h)
    · rw [h]; ring
    · rw [h]

/-! ### Gaussian beam -/

/-- The amplitude of a beam, with time dependence `exp (i w t)`, at the distance `s` behind its waist in the direction of propagation and
`sqrt r2` from the axis; `zo = k wo² / 2`. -/
noncomputable def paraxial (k zo s r2 : ℝ) : ℂ :=
  zo / (zo - Complex.I * s) * Complex.exp (-(k * r2) / (2 * (zo - Complex.I * s)))

theorem paraxial_ne (zo s : ℝ) (hz : zo ≠ 0) : (zo - Complex.I * s : ℂ) ≠ 0 := by
  intro h
  have := congrArg Complex.re h
  simp at this
  exact hz this

/-- **C164**: `paraxial` solves the paraxial wave equation: the second derivatives along `x` and `y` give `2 i k` times the derivative along
the direction of propagation. -/
theorem paraxial_wave (k zo : ℝ) (hz : zo ≠ 0) (s x y : ℝ) :
    ∃ ux uy : ℝ → ℂ, ∃ uxx uyy us : ℂ,
      (∀ a, HasDerivAt (fun a => paraxial k zo s (a ^ 2 + y ^ 2)) (ux a) a) ∧ HasDerivAt ux uxx x ∧
      (∀ a, HasDerivAt (fun a => paraxial k zo s (x ^ 2 + a ^ 2)) (uy a) a) ∧ HasDerivAt uy uyy y ∧
      HasDerivAt (fun a => paraxial k zo a (x ^ 2 + y ^ 2)) us s ∧ uxx + uyy = 2 * Complex.I * k * us := by
  have hne := paraxial_ne zo s hz
  obtain ⟨B, hB⟩ : ∃ B : ℂ, B = zo / (zo - Complex.I * s) := ⟨_, rfl⟩
  obtain ⟨c, hc⟩ : ∃ c : ℂ, c = k / (2 * (zo - Complex.I * s)) := ⟨_, rfl⟩
  have hp : ∀ r2 : ℝ, paraxial k zo s r2 = B * Complex.exp (-(c * r2)) := by
    intro r2
    unfold paraxial
    rw [hB, hc]
    congr 2
    ring
  have d0 : ∀ a : ℝ, HasDerivAt (fun a : ℝ => (a : ℂ)) 1 a := fun a => by simpa using (hasDerivAt_id a).ofReal_comp
  have d1 : ∀ (e : ℂ) (a : ℝ), HasDerivAt (fun a : ℝ => B * Complex.exp (-(c * ((a : ℂ) ^ 2 + e))))
      (B * Complex.exp (-(c * ((a : ℂ) ^ 2 + e))) * (-(c * (2 * a)))) a := by
    intro e a
    have := (((((d0 a).pow 2).add_const e).const_mul c).neg.cexp).const_mul B
    refine this.congr_deriv ?_
    simp
    ring
  have d2 : ∀ (e : ℂ) (a : ℝ), HasDerivAt (fun a : ℝ => B * Complex.exp (-(c * ((a : ℂ) ^ 2 + e))) * (-(c * (2 * a))))
      (B * Complex.exp (-(c * ((a : ℂ) ^ 2 + e))) * (4 * c ^ 2 * a ^ 2 - 2 * c)) a := by
    intro e a
    have := (d1 e a).mul (((d0 a).const_mul 2).const_mul c).neg
    refine this.congr_deriv ?_
    simp only [Pi.neg_apply]
    ring
  have d3 : HasDerivAt (fun a : ℝ => paraxial k zo a (x ^ 2 + y ^ 2))
      (B * Complex.exp (-(c * (x ^ 2 + y ^ 2))) * (Complex.I / (zo - Complex.I * s) -
        k * (x ^ 2 + y ^ 2) / 2 * Complex.I / (zo - Complex.I * s) ^ 2)) s := by
    have e1 : HasDerivAt (fun a : ℝ => (zo : ℂ) - Complex.I * a) (-Complex.I) s := by
      refine (((d0 s).const_mul Complex.I).const_sub (zo : ℂ)).congr_deriv (by ring)
    have e2 := (hasDerivAt_const s (zo : ℂ)).div e1 hne
    have e3 := ((hasDerivAt_const s (-(k * (x ^ 2 + y ^ 2)) : ℂ)).div (e1.const_mul 2) (mul_ne_zero two_ne_zero hne)).cexp
    have e4 := e2.mul e3
    have hfun : (fun a : ℝ => paraxial k zo a (x ^ 2 + y ^ 2)) = fun a : ℝ => (zo : ℂ) / (zo - Complex.I * a) *
        Complex.exp (-(k * (x ^ 2 + y ^ 2)) / (2 * (zo - Complex.I * a))) := by
      funext a
      unfold paraxial
      push_cast
      rfl
    rw [hfun]
    refine e4.congr_deriv ?_
    have he : -(k * (x ^ 2 + y ^ 2)) / (2 * (zo - Complex.I * s)) = -(c * ((x : ℂ) ^ 2 + y ^ 2)) := by rw [hc]; ring
    simp only [Pi.div_apply]
    rw [he, hB]
    generalize Complex.exp (-(c * ((x : ℂ) ^ 2 + y ^ 2))) = E
    field_simp
    ring
  refine ⟨_, _, _, _, _, fun a => ?_, d2 ((y : ℂ) ^ 2) x, fun a => ?_, d2 ((x : ℂ) ^ 2) y, d3, ?_⟩
  · simp only [hp]
    push_cast
    exact d1 _ a
  · simp only [hp]
    push_cast
    simp only [add_comm ((x : ℂ) ^ 2)]
    exact d1 _ a
  · rw [add_comm ((y : ℂ) ^ 2)]
    generalize Complex.exp (-(c * ((x : ℂ) ^ 2 + y ^ 2))) = E
    rw [hc]
    field_simp
    linear_combination (B * E * k * (-8 * zo + 8 * Complex.I * s + 4 * k * (x ^ 2 + y ^ 2))) * Complex.I_sq

/-- **C164**: amplitude and phase of the Gaussian beam are those of a beam towards `-z` with its waist `wo` at `z_c`, at the plane of the
source, and with the phase of a wave that passes `z_c` at phase zero. -/
theorem beam_spec (wo f n D r2 : ℝ) (hw : 0 < wo) (hf : 0 < f) (hn : 0 < n) (hD : D ≠ 0) :
    ∃ ph, beamPhase wo f n D r2 = some ph ∧
      (beamAmp wo f n D r2 : ℂ) * Complex.exp (Complex.I * ph) =
        paraxial (2 * Real.pi * f * n) (2 * Real.pi * f * n * wo ^ 2 / 2) D r2 * Complex.exp (-(Complex.I * (2 * Real.pi * f * n * D : ℝ))) := by
  obtain ⟨k, hk⟩ : ∃ k, k = 2 * Real.pi * f * n := ⟨_, rfl⟩
  obtain ⟨zo, hzo⟩ : ∃ zo, zo = rayleigh wo f n := ⟨_, rfl⟩
  have hk0 : 0 < k := by rw [hk]; have := Real.pi_pos; positivity
  have hz : zo = k * wo ^ 2 / 2 := by rw [hzo, hk, rayleigh]; ring
  have hz0 : 0 < zo := by rw [hz]; positivity
  refine ⟨-(k * D - Real.arctan (D / zo) + k * r2 * D / (2 * (D ^ 2 + zo ^ 2))), ?_, ?_⟩
  · simp only [beamPhase]
    rw [if_neg hD, ← hzo, hk]
    congr 2
    have : D ^ 2 + zo ^ 2 ≠ 0 := by positivity
    have h2 : D * (1 + zo / D * (zo / D)) = (D ^ 2 + zo ^ 2) / D := by field_simp
    rw [h2]
    field_simp
  · rw [← hk, ← hz]
    have hx : 0 < 1 + (D / zo) ^ 2 := by positivity
    have hamp : beamAmp wo f n D r2 = 1 / Real.sqrt (1 + (D / zo) ^ 2) * Real.exp (-(k * zo * r2) / (2 * (D ^ 2 + zo ^ 2))) := by
      simp only [beamAmp]
      rw [← hzo, ← sq (D / zo), ← sq (wo * _), mul_pow, Real.sq_sqrt hx.le]
      have hs : Real.sqrt (1 + (D / zo) ^ 2) ≠ 0 := (Real.sqrt_pos.2 hx).ne'
      congr 1
      · field_simp
      · congr 1
        have : D ^ 2 + zo ^ 2 ≠ 0 := by positivity
        have h1 : wo ^ 2 * (1 + (D / zo) ^ 2) = 2 * (D ^ 2 + zo ^ 2) / (k * zo) := by
          rw [hz]
          field_simp
          ring
        rw [h1]
        field_simp
    have hq : (D ^ 2 + zo ^ 2 : ℝ) ≠ 0 := by positivity
    have hat : Complex.exp (Complex.I * Real.arctan (D / zo)) =
        (1 + Complex.I * (D / zo : ℝ)) / (Real.sqrt (1 + (D / zo) ^ 2) : ℝ) := by
      rw [mul_comm, Complex.exp_mul_I, ← Complex.ofReal_cos, ← Complex.ofReal_sin, Real.cos_arctan, Real.sin_arctan]
      push_cast
      ring
    have hne := paraxial_ne zo D hz0.ne'
    have hsplit : (-(k * r2) / (2 * (zo - Complex.I * D)) : ℂ) =
        ((-(k * zo * r2) / (2 * (D ^ 2 + zo ^ 2)) : ℝ) : ℂ) + Complex.I * ((-(k * r2 * D / (2 * (D ^ 2 + zo ^ 2))) : ℝ) : ℂ) := by
      have hq' : ((D : ℂ) ^ 2 + zo ^ 2) ≠ 0 := by exact_mod_cast hq
      push_cast
      field_simp
      linear_combination (-(k : ℂ) * r2 * D ^ 2) * Complex.I_sq
    have hlead : (zo / (zo - Complex.I * D) : ℂ) = ((1 / Real.sqrt (1 + (D / zo) ^ 2) : ℝ) : ℂ) *
        Complex.exp (Complex.I * Real.arctan (D / zo)) := by
      rw [hat]
      have hs : ((Real.sqrt (1 + (D / zo) ^ 2) : ℝ) : ℂ) * ((Real.sqrt (1 + (D / zo) ^ 2) : ℝ) : ℂ) = 1 + ((D / zo : ℝ) : ℂ) ^ 2 := by
        rw [← Complex.ofReal_mul, Real.mul_self_sqrt hx.le]
        push_cast
        rfl
      have hs0 : ((Real.sqrt (1 + (D / zo) ^ 2) : ℝ) : ℂ) ≠ 0 := by
        exact_mod_cast (Real.sqrt_pos.2 hx).ne'
      have hzc : (zo : ℂ) ≠ 0 := by exact_mod_cast hz0.ne'
      rw [Complex.ofReal_div, Complex.ofReal_one]
      generalize ((Real.sqrt (1 + (D / zo) ^ 2) : ℝ) : ℂ) = q at hs hs0 ⊢
      push_cast at hs ⊢
      rw [one_div, inv_mul_eq_div, div_div, hs, div_eq_div_iff hne (by
        rw [← hs]; exact mul_ne_zero hs0 hs0)]
      field_simp
      linear_combination ((D : ℂ) ^ 2) * Complex.I_sq
    unfold paraxial
    rw [hsplit, hlead, hamp, Complex.exp_add]
    rw [Complex.ofReal_mul, Complex.ofReal_exp]
    have hsum : Complex.exp (Complex.I * ((-(k * D - Real.arctan (D / zo) + k * r2 * D / (2 * (D ^ 2 + zo ^ 2))) : ℝ) : ℂ)) =
        Complex.exp (Complex.I * Real.arctan (D / zo)) * Complex.exp (Complex.I * ((-(k * r2 * D / (2 * (D ^ 2 + zo ^ 2))) : ℝ) : ℂ)) *
          Complex.exp (-(Complex.I * ((k * D : ℝ) : ℂ))) := by
      rw [← Complex.exp_add, ← Complex.exp_add]
      congr 1
      generalize Real.arctan (D / zo) = b
      generalize k * r2 * D / (2 * (D ^ 2 + zo ^ 2)) = d
      push_cast
      ring
    rw [hsum]
    ring

/-- The plane of the source two units above the waist. -/
example : ∃ ph, beamPhase 1 1 1 2 0 = some ph ∧ (beamAmp 1 1 1 2 0 : ℂ) * Complex.exp (Complex.I * ph) =
    paraxial (2 * Real.pi * 1 * 1) (2 * Real.pi * 1 * 1 * 1 ^ 2 / 2) 2 0 *
      Complex.exp (-(Complex.I * (2 * Real.pi * 1 * 1 * 2 : ℝ))) :=
  by simpa using beam_spec 1 1 1 2 0 one_pos one_pos one_pos two_ne_zero

/-- **C164**: the code has one sign of the phase for both directions.  A beam towards `+z` with its waist at `z_c` is at the distance `-D`
behind its waist; the source has this amplitude exactly where the sine of its phase is zero. -/
theorem beam_up_fails (wo f n D r2 : ℝ) (hw : 0 < wo) (hf : 0 < f) (hn : 0 < n) (hD : D ≠ 0) :
    ∃ ph, beamPhase wo f n D r2 = some ph ∧
      ((beamAmp wo f n D r2 : ℂ) * Complex.exp (Complex.I * ph) =
        paraxial (2 * Real.pi * f * n) (2 * Real.pi * f * n * wo ^ 2 / 2) (-D) r2 * Complex.exp (Complex.I * (2 * Real.pi * f * n * D : ℝ)) ↔
        Real.sin ph = 0) := by
  obtain ⟨ph', h1, h2⟩ := beam_spec wo f n (-D) r2 hw hf hn (neg_ne_zero.2 hD)
  refine ⟨-ph', ?_, ?_⟩
  · simp only [beamPhase] at h1 ⊢
    rw [if_neg (neg_ne_zero.2 hD), Option.some.injEq] at h1
    rw [if_neg hD, ← h1, neg_div, Real.arctan_neg]
    have e : -D * (1 + rayleigh wo f n / -D * (rayleigh wo f n / -D)) = -(D * (1 + rayleigh wo f n / D * (rayleigh wo f n / D))) := by
      rw [div_neg]
      ring
    rw [e]
    generalize D * (1 + rayleigh wo f n / D * (rayleigh wo f n / D)) = R
    rw [mul_neg 2 R, div_neg]
    congr 1
    ring
  · have ha : beamAmp wo f n (-D) r2 = beamAmp wo f n D r2 := by simp only [beamAmp, neg_div, neg_mul_neg]
    have hpos : 0 < beamAmp wo f n D r2 := by
      simp only [beamAmp]
      have : 0 < Real.sqrt (1 + D / rayleigh wo f n * (D / rayleigh wo f n)) :=
        Real.sqrt_pos.2 (by nlinarith [mul_self_nonneg (D / rayleigh wo f n)])
      have := Real.exp_pos (-r2 / (wo * Real.sqrt (1 + D / rayleigh wo f n * (D / rayleigh wo f n)) *
        (wo * Real.sqrt (1 + D / rayleigh wo f n * (D / rayleigh wo f n)))))
      positivity
    rw [ha] at h2
    have e : (-(Complex.I * ((2 * Real.pi * f * n * -D : ℝ) : ℂ))) = Complex.I * ((2 * Real.pi * f * n * D : ℝ) : ℂ) := by push_cast; ring
    rw [e] at h2
    rw [← h2]
    have hne : (beamAmp wo f n D r2 : ℂ) ≠ 0 := by exact_mod_cast hpos.ne'
    rw [mul_right_inj' hne, mul_comm Complex.I, mul_comm Complex.I, Complex.exp_mul_I, Complex.exp_mul_I, ← Complex.ofReal_cos,
      ← Complex.ofReal_sin, ← Complex.ofReal_cos, ← Complex.ofReal_sin, Real.cos_neg, Real.sin_neg, Complex.ext_iff]
    generalize Real.cos ph' = x
    generalize Real.sin ph' = y
    simp
    constructor
    · intro h; linarith
    · intro h; rw [h]; simp

/-- **C164**: a source in the plane of the waist has no phase: division by zero. -/
theorem waist_fails (wo f n r2 : ℝ) : beamPhase wo f n 0 r2 = none := by simp [beamPhase]

/-! ### Phases -/

/-- **C164**: with `Gaussian_phase` the pulse is odd about its peak, so that its sum over all times is zero. -/
theorem gaussian_phase (w : ℝ) (t0 tdecay : ℤ) :
    (∀ m, gaussAmp w (gaussianPhase w t0) t0 tdecay (t0 - m) = -gaussAmp w (gaussianPhase w t0) t0 tdecay (t0 + m)) ∧
      ∀ N : ℕ, ∑ m ∈ Finset.Icc (-(N : ℤ)) N, gaussAmp w (gaussianPhase w t0) t0 tdecay (t0 + m) = 0 := by
  have h : ∀ m, gaussAmp w (gaussianPhase w t0) t0 tdecay (t0 - m) = -gaussAmp w (gaussianPhase w t0) t0 tdecay (t0 + m) := by
    intro m
    unfold gaussAmp gaussianPhase
    have e1 : w * ((t0 - m : ℤ) : ℝ) + -w * t0 = -(w * m) := by push_cast; ring
    have e2 : w * ((t0 + m : ℤ) : ℝ) + -w * t0 = w * m := by push_cast; ring
    rw [e1, e2, Real.sin_neg]
    by_cases hm : t0 - 3 * tdecay < t0 - m ∧ t0 - m < t0 + 3 * tdecay
    · rw [if_pos hm, if_pos (by omega)]
      have e3 : (((t0 - m - t0 : ℤ) : ℝ) / tdecay) ^ 2 = (((t0 + m - t0 : ℤ) : ℝ) / tdecay) ^ 2 := by push_cast; ring
      rw [e3]
      ring
    · rw [if_neg hm, if_neg (by omega), neg_zero]
  refine ⟨h, fun N => ?_⟩
  have h2 : ∑ m ∈ Finset.Icc (-(N : ℤ)) N, gaussAmp w (gaussianPhase w t0) t0 tdecay (t0 + m) =
      ∑ m ∈ Finset.Icc (-(N : ℤ)) N, gaussAmp w (gaussianPhase w t0) t0 tdecay (t0 - m) := by
    refine Finset.sum_nbij' (fun m => -m) (fun m => -m) ?_ ?_ ?_ ?_ ?_
    · intro m hm; rw [Finset.mem_Icc] at *; omega
    · intro m hm; rw [Finset.mem_Icc] at *; omega
    · intro m _; exact neg_neg m
    · intro m _; exact neg_neg m
    · intro m _
      rw [sub_neg_eq_add]
  rw [Finset.sum_congr rfl (fun m _ => h m), Finset.sum_neg_distrib] at h2
  linarith

/-- **C164**: with `Lorentzian_phase` the integral of the decaying wave over all times is purely imaginary, with the sine part the largest
that any phase can give, `1 / sqrt (w² + γ²)`, and the cosine part zero. -/
theorem lorentzian_phase (w : ℝ) (hw : 0 < w) (tdecay : ℤ) (hd : 0 < tdecay) :
    (∫ s in Set.Ioi (0 : ℝ), Complex.exp (Complex.I * (w * s + lorentzianPhase w tdecay)) * Complex.exp (-s / tdecay)) =
        Complex.I / (Real.sqrt (w ^ 2 + (1 / (tdecay : ℝ)) ^ 2) : ℝ) ∧
      ∀ φ : ℝ, ‖∫ s in Set.Ioi (0 : ℝ), Complex.exp (Complex.I * (w * s + φ)) * Complex.exp (-s / tdecay)‖ =
        1 / Real.sqrt (w ^ 2 + (1 / (tdecay : ℝ)) ^ 2) := by
  obtain ⟨g, hg⟩ : ∃ g : ℝ, g = 1 / (tdecay : ℝ) := ⟨_, rfl⟩
  have hd' : (0 : ℝ) < tdecay := by exact_mod_cast hd
  have hg0 : 0 < g := by rw [hg]; positivity
  have hq : 0 < w ^ 2 + g ^ 2 := by positivity
  have hs0 : 0 < Real.sqrt (w ^ 2 + g ^ 2) := Real.sqrt_pos.2 hq
  have hss : Real.sqrt (w ^ 2 + g ^ 2) ^ 2 = w ^ 2 + g ^ 2 := Real.sq_sqrt hq.le
  have hint : ∀ φ : ℝ, (∫ s in Set.Ioi (0 : ℝ), Complex.exp (Complex.I * (w * s + φ)) * Complex.exp (-s / tdecay)) =
      Complex.exp (Complex.I * φ) * (1 / (g - Complex.I * w)) := by
    intro φ
    have h1 : (fun s : ℝ => Complex.exp (Complex.I * (w * s + φ)) * Complex.exp (-s / tdecay)) =
        fun s : ℝ => Complex.exp (Complex.I * φ) * Complex.exp ((Complex.I * w - g) * s) := by
      funext s
      rw [← Complex.exp_add, ← Complex.exp_add, hg]
      congr 1
      push_cast
      ring
    rw [h1, MeasureTheory.integral_const_mul, integral_exp_mul_complex_Ioi (by simpa using hg0)]
    congr 1
    have hne : (g - Complex.I * w : ℂ) ≠ 0 := paraxial_ne g w hg0.ne'
    have hne' : (Complex.I * w - g : ℂ) ≠ 0 := by rw [← neg_sub]; exact neg_ne_zero.2 hne
    simp only [Complex.ofReal_zero, mul_zero, Complex.exp_zero]
    rw [div_eq_div_iff hne' hne]
    ring
  rw [← hg]
  refine ⟨?_, fun φ => ?_⟩
  · rw [hint]
    have hph : lorentzianPhase w tdecay = Real.arcsin (g / Real.sqrt (w ^ 2 + g ^ 2)) := by
      simp only [lorentzianPhase]
      rw [← hg, ← sq, ← sq]
    have hle : g / Real.sqrt (w ^ 2 + g ^ 2) ≤ 1 := by
      rw [div_le_one hs0]
      exact Real.le_sqrt_of_sq_le (by nlinarith [sq_nonneg w])
    have hge : -1 ≤ g / Real.sqrt (w ^ 2 + g ^ 2) := le_trans (by norm_num) (div_nonneg hg0.le hs0.le)
    have hcos : Real.cos (Real.arcsin (g / Real.sqrt (w ^ 2 + g ^ 2))) = w / Real.sqrt (w ^ 2 + g ^ 2) := by
      rw [Real.cos_arcsin, div_pow, hss]
      have : 1 - g ^ 2 / (w ^ 2 + g ^ 2) = (w / Real.sqrt (w ^ 2 + g ^ 2)) ^ 2 := by
        rw [div_pow, hss]
        field_simp
        ring
      rw [this, Real.sqrt_sq (div_nonneg hw.le hs0.le)]
    rw [hph, mul_comm Complex.I, Complex.exp_mul_I, ← Complex.ofReal_cos, ← Complex.ofReal_sin, Real.sin_arcsin hge hle, hcos]
    have hne : (g - Complex.I * w : ℂ) ≠ 0 := paraxial_ne g w hg0.ne'
    have hsc : ((Real.sqrt (w ^ 2 + g ^ 2) : ℝ) : ℂ) ≠ 0 := by exact_mod_cast hs0.ne'
    generalize Real.sqrt (w ^ 2 + g ^ 2) = q at hsc
    push_cast
    rw [eq_div_iff hsc, mul_one_div, div_mul_eq_mul_div, div_eq_iff hne]
    field_simp
    linear_combination (w : ℂ) * Complex.I_sq
  · rw [hint, norm_mul, mul_comm Complex.I, Complex.norm_exp_ofReal_mul_I, one_mul, norm_div, norm_one]
    congr 1
    have : (g - Complex.I * w : ℂ) = (g : ℝ) + ((-w : ℝ) : ℂ) * Complex.I := by push_cast; ring
    rw [this, Complex.norm_add_mul_I]
    congr 1
    ring

end OpenMS.FdtdSource
