import Verif.Model.Estimation
import Verif.Model.Transforms

/-!
# The estimation objects of the asymmetric models

Each estimator is the generic `LogitTypeEstimator` with the utility transformation of its model and the
derivatives that `set_derivatives` installs.  There are two forms of each: with and without outside
intercepts.  `ref` is the position of the reference alternative of the intercepts.
-/

open Matrix

namespace Pylogit

noncomputable section

variable {R O K ι : Type} {n : ℕ}
variable [Fintype R] [DecidableEq R] [Fintype O] [Fintype K] [DecidableEq K]

/-- `ClogEstimator`, clog_log.py:344-508, with outside intercepts. -/
def clogEstimator (ref : Fin (n + 1)) (d : FitData R O (Fin (n + 1)) K ι) (ridge : Option ℝ)
    (weights : Option (R → ℝ)) (constrained : Option (List (Fin n ⊕ K))) : Estimator (Fin n ⊕ K) :=
  estimatorIcpt (S := Empty) (clogTransform (some ref)) (clogDerivs ref d.rowsToAlts) d ridge weights
    constrained

/-- `ClogEstimator`, clog_log.py:344-508, without outside intercepts. -/
def clogEstimatorPlain (ref : Fin (n + 1)) (d : FitData R O (Fin (n + 1)) K ι) (ridge : Option ℝ)
    (weights : Option (R → ℝ)) (constrained : Option (List K)) : Estimator K :=
  estimatorNone (S := Empty) (clogTransform (some ref)) (clogDerivs ref d.rowsToAlts) d ridge weights
    constrained

/-- `ScobitEstimator`, scobit.py:422-617, with outside intercepts. -/
def scobitEstimator (ref : Fin (n + 1)) (d : FitData R O (Fin (n + 1)) K ι) (ridge : Option ℝ)
    (weights : Option (R → ℝ)) (constrained : Option (List (Fin (n + 1) ⊕ (Fin n ⊕ K)))) :
    Estimator (Fin (n + 1) ⊕ (Fin n ⊕ K)) :=
  estimatorBoth (scobitTransform (some ref)) (scobitDerivs ref d.rowsToAlts) d ridge weights constrained

/-- `ScobitEstimator`, scobit.py:422-617, without outside intercepts. -/
def scobitEstimatorPlain (ref : Fin (n + 1)) (d : FitData R O (Fin (n + 1)) K ι) (ridge : Option ℝ)
    (weights : Option (R → ℝ)) (constrained : Option (List (Fin (n + 1) ⊕ K))) :
    Estimator (Fin (n + 1) ⊕ K) :=
  estimatorShape (scobitTransform (some ref)) (scobitDerivs ref d.rowsToAlts) d ridge weights constrained

/-- `UnevenEstimator`, uneven_logit.py:422-617, with outside intercepts. -/
def unevenEstimator (ref : Fin (n + 1)) (d : FitData R O (Fin (n + 1)) K ι) (ridge : Option ℝ)
    (weights : Option (R → ℝ)) (constrained : Option (List (Fin (n + 1) ⊕ (Fin n ⊕ K)))) :
    Estimator (Fin (n + 1) ⊕ (Fin n ⊕ K)) :=
  estimatorBoth (unevenTransform (some ref)) (unevenDerivs ref d.rowsToAlts) d ridge weights constrained

/-- `UnevenEstimator`, uneven_logit.py:422-617, without outside intercepts. -/
def unevenEstimatorPlain (ref : Fin (n + 1)) (d : FitData R O (Fin (n + 1)) K ι) (ridge : Option ℝ)
    (weights : Option (R → ℝ)) (constrained : Option (List (Fin (n + 1) ⊕ K))) :
    Estimator (Fin (n + 1) ⊕ K) :=
  estimatorShape (unevenTransform (some ref)) (unevenDerivs ref d.rowsToAlts) d ridge weights constrained

/-- `AsymEstimator`, asym_logit.py:589-801, with outside intercepts; `sref` is the reference alternative of
the shapes. -/
def asymEstimator (sref ref : Fin (n + 1)) (d : FitData R O (Fin (n + 1)) K ι) (ridge : Option ℝ)
    (weights : Option (R → ℝ)) (constrained : Option (List (Fin n ⊕ (Fin n ⊕ K)))) :
    Estimator (Fin n ⊕ (Fin n ⊕ K)) :=
  estimatorBoth (asymTransform sref (some ref)) (asymDerivs sref ref d.rowsToAlts) d ridge weights
    constrained

/-- `AsymEstimator`, asym_logit.py:589-801, without outside intercepts. -/
def asymEstimatorPlain (sref ref : Fin (n + 1)) (d : FitData R O (Fin (n + 1)) K ι) (ridge : Option ℝ)
    (weights : Option (R → ℝ)) (constrained : Option (List (Fin n ⊕ K))) : Estimator (Fin n ⊕ K) :=
  estimatorShape (asymTransform sref (some ref)) (asymDerivs sref ref d.rowsToAlts) d ridge weights
    constrained

end

end Pylogit
