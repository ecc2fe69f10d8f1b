import Verif.Spec.Predict
import Verif.Model.Construct
import Verif.Model.FitStore

/-!
# Specification vocabulary: the same things listed in another order
-/

namespace Pylogit.Spec

/-- `σ` says where the entries of the list `l'` stand in the list `l`; every entry of one is exactly one of the other. -/
def Relists {α : Type} (l' l : List α) (σ : Fin l'.length ≃ Fin l.length) : Prop :=
  ∀ j, l'.get j = l.get (σ j)

/-- The nests `ns'` are the nests `ns`, nests and members of nests listed in another order: `π` says where. -/
def RelistsNests (ns' ns : List (String × List ℝ)) (π : Fin ns'.length ≃ Fin ns.length) : Prop :=
  ∀ i, (ns'.get i).1 = (ns.get (π i)).1 ∧ (ns'.get i).2.Perm (ns.get (π i)).2

/-- The name dictionaries of two sets of arguments, if any, list their variables in the orders of the specifications, and
give the same names. -/
def SameNames (a a' : ModelArgs ℝ) : Prop :=
  (a.names = none ∧ a'.names = none) ∨ ∃ ns ns', a.names = some ns ∧ a'.names = some ns' ∧ ns'.Perm ns ∧
    ns.map Prod.fst = a.specification.map Prod.fst ∧ ns'.map Prod.fst = a'.specification.map Prod.fst

section Fits

variable {n n' : ℕ} (σ : Fin n' ≃ Fin n)

/-- Two labelled series with the same entries under the same labels; entry `j` of the second is entry `σ j` of the
first. -/
def SeriesRelisted {α : Type} (s s' : Option (Series α)) : Prop :=
  ∃ (L : Fin n → String) (x : Fin n → α), s = some ⟨List.ofFn L, List.ofFn x⟩ ∧
    s' = some ⟨List.ofFn fun j => L (σ j), List.ofFn fun j => x (σ j)⟩

/-- Two labelled square tables with the same entries under the same labels. -/
def TableRelisted (s s' : Option LabelledMatrix) : Prop :=
  ∃ (L : Fin n → String) (C : Fin n → Fin n → ℝ), s = some ⟨List.ofFn L, List.ofFn fun i => List.ofFn (C i)⟩ ∧
    s' = some ⟨List.ofFn fun i => L (σ i), List.ofFn fun i => List.ofFn fun j => C (σ i) (σ j)⟩

/-- Two fits report the same, with the parameters in another order: parameter `j` of the second is parameter `σ j` of the
first. -/
structure SameFitRelisted (t t' : FitAttrs) : Prop where
  logLik : t'.logLik = t.logLik ∧ t'.llf = t.llf ∧ t'.nullLL = t.nullLL
  goodness : t'.rhoSq = t.rhoSq ∧ t'.rhoBarSq = t.rhoBarSq ∧ t'.aic = t.aic ∧ t'.bic = t.bic
  counts : t'.nobs = t.nobs ∧ t'.dfModel = t.dfModel ∧ t'.dfResid = t.dfResid
  probabilities : t'.longFittedProbs = t.longFittedProbs ∧ t'.fittedProbs = t.fittedProbs
  residuals : t'.longResiduals = t.longResiduals ∧ t'.indChiSquareds = t.indChiSquareds ∧ t'.chiSquare = t.chiSquare
  params : SeriesRelisted σ t.params t'.params
  gradient : SeriesRelisted σ t.gradient t'.gradient
  stdErrs : SeriesRelisted σ t.stdErrs t'.stdErrs
  tvalues : SeriesRelisted σ t.tvalues t'.tvalues
  pvalues : SeriesRelisted σ t.pvalues t'.pvalues
  hessian : TableRelisted σ t.hessian t'.hessian
  cov : TableRelisted σ t.cov t'.cov
  fisher : TableRelisted σ t.fisher t'.fisher
  robustCov : TableRelisted σ t.robustCov t'.robustCov
  /-- robust standard errors, t- and p-values, where the robust variance is not zero -/
  robust : ∃ (L : Fin n → String) (L' : Fin n' → String) (C : Fin n → Fin n → ℝ) (e v p : Fin n → Option ℝ)
      (e' v' p' : Fin n' → Option ℝ),
    t.robustCov = some ⟨List.ofFn L, List.ofFn fun i => List.ofFn (C i)⟩ ∧
    t.robustStdErrs = some ⟨List.ofFn L, List.ofFn e⟩ ∧ t'.robustStdErrs = some ⟨List.ofFn L', List.ofFn e'⟩ ∧
    t.robustTStats = some ⟨List.ofFn L, List.ofFn v⟩ ∧ t'.robustTStats = some ⟨List.ofFn L', List.ofFn v'⟩ ∧
    t.robustPVals = some ⟨List.ofFn L, List.ofFn p⟩ ∧ t'.robustPVals = some ⟨List.ofFn L', List.ofFn p'⟩ ∧
    (∀ j, L' j = L (σ j)) ∧ ∀ j, C (σ j) (σ j) ≠ 0 → e' j = e (σ j) ∧ v' j = v (σ j) ∧ p' j = p (σ j)

end Fits

end Pylogit.Spec
