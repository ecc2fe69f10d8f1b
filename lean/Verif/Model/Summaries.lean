import Verif.Model.FitStore

/-!
# Model of the two summaries a fitted model object shows
-/

namespace Pylogit

noncomputable section

/-- `print_summaries`, base_multinomial_cm_v2.py:1556-1572: the two objects it prints.  Layout and
rounding of the printed text are not modelled. -/
def printSummaries (s : FitAttrs) : Except Err (FitSummary × SummaryTable) :=
  match s.fitSummary, s.summary with
  | some f, some t => .ok (f, t)
  | _, _ => .error .notImplementedError

/-- The upper part of the statsmodels summary, base_multinomial_cm_v2.py:1669-1689, without date,
time and title. -/
structure StatsmodelsTop where
  aic : ℝ
  bic : ℝ
  nobs : ℕ
  dfResid : ℤ
  dfModel : ℕ
  rhoSq : ℝ
  rhoBarSq : ℝ
  llf : ℝ
  nullLL : ℝ

/-- One row of the lower part: the label, the estimate, its standard error, its t-value, its
p-value and the two ends of its interval. -/
structure StatsmodelsRow where
  label : String
  coef : ℝ
  stdErr : Option ℝ
  tvalue : Option ℝ
  pvalue : Option ℝ
  lower : Option ℝ
  upper : Option ℝ

/-- The rows made by `add_table_params`, base_multinomial_cm_v2.py:1701-1705.  This statsmodels
function is not in the repository; it reads `params`, `bse`, `tvalues`, `pvalues` and
`conf_int(alpha)` of the object, by position, and `conf_int` (base_multinomial_cm_v2.py:1601-1609)
reads `params` and `standard_errors`.  Rows stop with the shortest of the lists. -/
def statsmodelsRows (z : ℝ) : List String → List ℝ → List (Option ℝ) → List (Option ℝ) →
    List (Option ℝ) → List (Option ℝ) → List StatsmodelsRow
  | l :: ls, b :: bs, e :: es, t :: ts, p :: ps, se :: ses =>
      ⟨l, b, e, t, p, se.map fun v => b - z * v, se.map fun v => b + z * v⟩ ::
        statsmodelsRows z ls bs es ts ps ses
  | _, _, _, _, _, _ => []

/-- What `get_statsmodels_summary` produces: the text of `print_summaries`, or a table. -/
inductive SummaryOutput where
  | printed (f : FitSummary) (t : SummaryTable)
  | table (top : StatsmodelsTop) (rows : List StatsmodelsRow)

/-- `get_statsmodels_summary`, base_multinomial_cm_v2.py:1625-1706.  `installed` says whether
statsmodels can be imported, `ppf` is the quantile function of the standard normal distribution.
Reading an attribute that does not exist raises `AttributeError`. -/
def statsmodelsSummary (installed : Bool) (ppf : ℝ → ℝ) (alpha : ℝ) (s : FitAttrs) :
    Except Err SummaryOutput :=
  if installed = false then do
    let x ← printSummaries s
    return .printed x.1 x.2
  else if s.success = none then .error .notImplementedError
  else
    match s.aic, s.bic, s.nobs, s.dfResid, s.dfModel, s.rhoSq, s.rhoBarSq, s.llf, s.nullLL with
    | some aic, some bic, some nobs, some dfr, some dfm, some rho, some rhoBar, some llf, some l0 =>
        match s.params, s.bse, s.tvalues, s.pvalues, s.stdErrs with
        | some p, some bse, some t, some pv, some se =>
            .ok (.table ⟨aic, bic, nobs, dfr, dfm, rho, rhoBar, llf, l0⟩
              (statsmodelsRows (ppf (1 - alpha / 2)) p.index p.values bse.values t.values pv.values
                se.values))
        | _, _, _, _, _ => .error .attributeError
    | _, _, _, _, _, _, _, _, _ => .error .attributeError

end

end Pylogit
