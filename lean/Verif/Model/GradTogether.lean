import Verif.Model.ScQedHF

/-!
# All gradients in one loop

`openms/mqed/vtqedhf.py` L321-435: `grad_var_params_together`, meant to replace `grad_var_params` (L438-526, see the comment at
L528), for one photon mode.  The term at L432-435, from the change of the self energy with the fraction, is the same number
in both and is an argument.
-/

namespace OpenMS.ScQed

/-- The three gradients stored on the object. -/
structure Grads (n : Type*) where
  eta : n → ℝ
  vlf : ℝ
  vsq : ℝ

variable {n : Type*} [Fintype n] [LinearOrder n]

/-- `vtqedhf.py` L340-361: the one-electron part of the displacement gradient. -/
noncomputable def togOneEta (s : Sys n) (f : ℝ) (eta : n → ℝ) (dG : ℝ → ℝ) (D : n → n → ℝ) (p : n) : ℝ :=
  let g := gDipole s f eta
  let tmp1 := fun p q => 2 * h1eDO s f eta p q * D p q * dG (eta p - eta q)
  let tmp2 := fun p q => (2 * D p p * D q q - D p q * D q p) * g q / s.omega
  (0 - 2 * D p p * g p / s.omega) + ∑ q, (tmp1 p q - tmp2 p q)

/-- `vtqedhf.py` L344-346, L363-374: the one-electron part of the gradient in the fraction. -/
noncomputable def togOneF (s : Sys n) (f : ℝ) (eta : n → ℝ) (dF : ℝ → ℝ) (D : n → n → ℝ) : ℝ :=
  let g := gDipole s f eta
  let start := if |f| > 1e-5 then 0 + 2 * (∑ p, D p p * g p ^ 2) / s.omega / f else 0
  let oei := ∑ p, ∑ q, h1eDO s f eta p q * D p q * dF (eta p - eta q)
  let gD2 := ∑ p, ∑ q, g p * g q * D p q * D p q
  let tmp := 2 * (∑ p, ∑ q, (D p p * g p) * (D q q * g q)) - gD2
  start + (oei + tmp / s.omega / f)

/-- `vtqedhf.py` L376-379: the one-electron part of the squeezing gradient; `dS` is called with the reversed differences (L188). -/
noncomputable def togOneSq (s : Sys n) (f : ℝ) (eta : n → ℝ) (dS : ℝ → ℝ) (D : n → n → ℝ) : ℝ :=
  ∑ p, ∑ q, h1eDO s f eta p q * D p q * dS (eta q - eta p)

/-- `vtqedhf.py` L392-394: `ID` at `rs` inside the loop over `p` and `q`. -/
noncomputable def togID {X : Type*} [Fintype X] (L : X → n → n → ℝ) (D : n → n → ℝ) (p q r t : n) : ℝ :=
  (2 * (∑ x, L x p q * L x r t) - ∑ x, L x p t * L x r q) * D r t

/-- `vtqedhf.py` L400-402: the two-electron part of the displacement gradient, Cholesky tensor: `shift = eta[q] - eta[p]` (L390) is added to
`eta[r] - eta[s]`. -/
noncomputable def togTwoEtaChol {X : Type*} [Fintype X] (L : X → n → n → ℝ) (eta : n → ℝ) (dG : ℝ → ℝ)
    (D : n → n → ℝ) (p : n) : ℝ :=
  ∑ q, (∑ r, ∑ t, togID L D p q r t * dG (eta r - eta t + (eta q - eta p))) * D p q

/-- `vtqedhf.py` L396-398: the two-electron part of the gradient in the fraction, with the same shift. -/
noncomputable def togTwoFChol {X : Type*} [Fintype X] (L : X → n → n → ℝ) (eta : n → ℝ) (dF : ℝ → ℝ)
    (D : n → n → ℝ) : ℝ :=
  ∑ p, ∑ q, (∑ r, ∑ t, togID L D p q r t * dF (eta r - eta t + (eta q - eta p))) * D p q / 4

/-- `vtqedhf.py` L404-406: the two-electron part of the squeezing gradient; here the differences are reversed (L188). -/
noncomputable def togTwoSqChol {X : Type*} [Fintype X] (L : X → n → n → ℝ) (eta : n → ℝ) (dS : ℝ → ℝ)
    (D : n → n → ℝ) : ℝ :=
  ∑ p, ∑ q, (∑ r, ∑ t, togID L D p q r t * dS (eta t - eta r + (eta q - eta p))) * D p q / 4

/-- `vtqedhf.py` L408-427: contraction of a four-index derivative `w p q r s` with the integrals, per `p q`. -/
noncomputable def togEri (s : Sys n) (w : n → n → n → n → ℝ) (D : n → n → ℝ) (p q : n) : ℝ :=
  ∑ r, ∑ t, w p q r t * (2 * s.eri p q r t - s.eri p t r q) * D r t

/-- `vtqedhf.py` L321-435: the whole function.  `L` is `some` Cholesky tensor or `none`; `varf` and `vsq` are the switches; `eb` is
`e_boson_grad_r`; `dse` the term of L432-435 (0 if it is not added); `old` the stored gradients. -/
noncomputable def gradTogether {X : Type*} [Fintype X] (s : Sys n) (L : Option (X → n → n → ℝ)) (varf vsq : Bool) (f : ℝ)
    (eta : n → ℝ) (dG dF dS : ℝ → ℝ) (D : n → n → ℝ) (eb dse : ℝ) (old : Grads n) : Grads n :=
  let two : (n → ℝ) × ℝ × ℝ := match L with
    | some L => (togTwoEtaChol L eta dG D, togTwoFChol L eta dF D, togTwoSqChol L eta dS D)
    | none =>
      (fun p => ∑ q, togEri s (fun p q r t => dG (eta p - eta q + eta r - eta t)) D p q * D p q,
        if varf then (∑ p, ∑ q, togEri s (fun p q r t => dF (eta p - eta q + eta r - eta t)) D p q * D p q) / 4 else 0,
        if vsq then (∑ p, ∑ q, togEri s (fun p q r t => dS (eta q - eta p + eta t - eta r)) D p q * D p q) / 4 else 0)
  { eta := fun p => togOneEta s f eta dG D p + two.1 p
    vlf := if varf then togOneF s f eta dF D + two.2.1 + dse else old.vlf
    vsq := if vsq then togOneSq s f eta dS D + two.2.2 + eb else old.vsq }

/-- `vtqedhf.py` L438-526: `grad_var_params`, with `get_eta_gradient` (`scqedhf.py` L620-678) and `get_vsq_gradient` (L263-318). -/
noncomputable def gradSeparate {X : Type*} [Fintype X] (s : Sys n) (L : Option (X → n → n → ℝ)) (varf vsq : Bool) (f : ℝ)
    (eta : n → ℝ) (dG dF dS : ℝ → ℝ) (D : n → n → ℝ) (eb dse : ℝ) (old : Grads n) : Grads n :=
  let g := gDipole s f eta
  let oneF := (if |f| > 1e-5 then 2 * (∑ p, D p p * g p ^ 2) / s.omega / f else 0) +
    ((∑ p, ∑ q, h1eDO s f eta p q * dF (eta p - eta q) * D p q) +
      (2 * (∑ p, ∑ q, (D p p * g p) * (D q q * g q)) - ∑ p, ∑ q, D p q * D p q * g p * g q) / s.omega / f)
  let twoF := match L with
    | some L => ∑ p, ∑ q, (∑ r, ∑ t, (2 * (∑ x, L x p q * L x r t) - ∑ x, L x p t * L x r q) *
        dF (eta r - eta t + (eta p - eta q)) * D r t) * D p q / 4
    | none => (∑ p, ∑ q, (∑ r, ∑ t, dF (eta p - eta q + eta r - eta t) *
        (2 * s.eri p q r t - s.eri p t r q) * D r t) * D p q) / 4
  { eta := match L with
      | some L => fun p => onebodyDeta s f eta dG D p + twobodyDetaChol L eta dG D p
      | none => etaGrad s f eta dG D
    vlf := if varf then oneF + twoF + dse else old.vlf
    vsq := if vsq then (match L with
      | some L => (∑ p, ∑ q, h1eDO s f eta p q * dS (eta q - eta p) * D p q) + vsqTwoChol L eta dS D
      | none => vsqGrad s f eta dS D) + eb else old.vsq }

end OpenMS.ScQed
