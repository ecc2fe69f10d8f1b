import Verif.Spec.Separation
import Verif.Spec.LikelihoodRatio

/-!
# Specification vocabulary for changes of units
-/

namespace Pylogit.Spec

noncomputable section

/-- The table with the values of every column `c` multiplied by `k c`: the same data in other units. -/
def inUnits (df : Frame ℝ) (k : String → ℝ) : Frame ℝ where
  columns := df.columns
  numRows := df.numRows
  val := fun c r => k c * df.val c r

/-- Only variables get other units: not the ids, the choices and the constant. -/
structure OnlyVariables (a : ModelArgs ℝ) (k : String → ℝ) : Prop where
  obs : k a.obsIdCol = 1
  alt : k a.altIdCol = 1
  choice : k a.choiceCol = 1
  intercept : k "intercept" = 1
  nonzero : ∀ c, k c ≠ 0

/-- The variable of a described column. -/
def ColDesc.ofVariable : ColDesc ℝ → String
  | .same v => v
  | .alt v _ => v
  | .group v _ => v

/-- The values of parameter `j` in a table of replicates with one row per replicate. -/
def columnOf (reps : List (List ℝ)) (j : ℕ) : List ℝ := reps.map fun x => x.getD j 0

/-- No combination of the columns, other than that with all coefficients zero, is constant within every observation
that is looked at. -/
def IdentifiedOn (df : Frame ℝ) (obsCol altCol : String) (cols : List (ColDesc ℝ)) (look : ℝ → Prop) : Prop :=
  ∀ v : Fin cols.length → ℝ, (∀ r s, df.val obsCol r = df.val obsCol s → look (df.val obsCol r) →
    rowIndex df altCol cols (List.ofFn v) r = rowIndex df altCol cols (List.ofFn v) s) → v = 0

/-- No utility is clipped at any of the replicates. -/
def NeverClipped (df : Frame ℝ) (altCol : String) (cols : List (ColDesc ℝ)) (reps : List (List ℝ)) : Prop :=
  ∀ x ∈ reps, ∀ r, |rowIndex df altCol cols x r| < 700

/-- No utility is clipped at the stored estimates. -/
def UnclippedFit (df : Frame ℝ) (altCol : String) (cols : List (ColDesc ℝ)) (t : FitAttrs) : Prop :=
  ∀ L x, t.params = some ⟨L, x⟩ → ∀ r, |rowIndex df altCol cols x r| < 700

/-- Two fits report the same, where the unit of parameter `j` is `κ j` times smaller in the second one: all
statistics of the fit, the fitted probabilities, the residuals and the p-values are the same, the estimates are
divided by `κ j`, the standard errors by its absolute value, the covariances by both factors, and the t-values
have the same absolute value and, where `κ j` is positive, the same sign. -/
structure SameFitInUnits {n : ℕ} (κ : Fin n → ℝ) (t t' : FitAttrs) : Prop where
  logLik : t'.logLik = t.logLik ∧ t'.llf = t.llf ∧ t'.nullLL = t.nullLL
  goodness : t'.rhoSq = t.rhoSq ∧ t'.rhoBarSq = t.rhoBarSq ∧ t'.aic = t.aic ∧ t'.bic = t.bic
  counts : t'.nobs = t.nobs ∧ t'.dfModel = t.dfModel ∧ t'.dfResid = t.dfResid
  probabilities : t'.longFittedProbs = t.longFittedProbs ∧ t'.fittedProbs = t.fittedProbs
  residuals : t'.longResiduals = t.longResiduals ∧ t'.indChiSquareds = t.indChiSquareds ∧ t'.chiSquare = t.chiSquare
  params : ∃ L, ∃ x x' : Fin n → ℝ, t.params = some ⟨L, List.ofFn x⟩ ∧ t'.params = some ⟨L, List.ofFn x'⟩ ∧
    ∀ j, x' j = (κ j)⁻¹ * x j
  stdErrs : ∃ L, ∃ e e' : Fin n → ℝ, t.stdErrs = some ⟨L, List.ofFn fun j => some (e j)⟩ ∧
    t'.stdErrs = some ⟨L, List.ofFn fun j => some (e' j)⟩ ∧ ∀ j, e' j = |κ j|⁻¹ * e j
  tvalues : ∃ L, ∃ v v' : Fin n → ℝ, t.tvalues = some ⟨L, List.ofFn fun j => some (v j)⟩ ∧
    t'.tvalues = some ⟨L, List.ofFn fun j => some (v' j)⟩ ∧ ∀ j, v' j = if 0 < κ j then v j else -v j
  pvalues : t'.pvalues = t.pvalues
  cov : ∃ L, ∃ C C' : Fin n → Fin n → ℝ, t.cov = some ⟨L, List.ofFn fun i => List.ofFn (C i)⟩ ∧
    t'.cov = some ⟨L, List.ofFn fun i => List.ofFn (C' i)⟩ ∧ ∀ i j, C' i j = (κ i)⁻¹ * (κ j)⁻¹ * C i j
  robust : ∃ L, ∃ C C' : Fin n → Fin n → ℝ, t.robustCov = some ⟨L, List.ofFn fun i => List.ofFn (C i)⟩ ∧
    t'.robustCov = some ⟨L, List.ofFn fun i => List.ofFn (C' i)⟩ ∧ (∀ i j, C' i j = (κ i)⁻¹ * (κ j)⁻¹ * C i j) ∧
    ∃ e e' v v' p p' : Fin n → Option ℝ, t.robustStdErrs = some ⟨L, List.ofFn e⟩ ∧ t'.robustStdErrs = some ⟨L, List.ofFn e'⟩ ∧
      t.robustTStats = some ⟨L, List.ofFn v⟩ ∧ t'.robustTStats = some ⟨L, List.ofFn v'⟩ ∧
      t.robustPVals = some ⟨L, List.ofFn p⟩ ∧ t'.robustPVals = some ⟨L, List.ofFn p'⟩ ∧
      ∀ j, 0 < C j j → (∃ a, e j = some a ∧ e' j = some (|κ j|⁻¹ * a)) ∧
        (∃ a, v j = some a ∧ v' j = some (if 0 < κ j then a else -a)) ∧ p' j = p j

end

end Pylogit.Spec
