import Verif.Spec.LikelihoodRatio

/-!
# Specification vocabulary for the choice of the reference alternative
-/

namespace Pylogit.Spec

/-- The array of estimates `x` of a model with `k` coefficients consists of the shapes, the outside intercepts and the
coefficients in `p`, and those are the values of `q` for the alternatives `alts`. -/
structure EstimatesAre (cls : ModelType) (alts : List ℝ) (iref sref : PyRef) (k : ℕ) (x : List ℝ) (p : ParamArrays)
    (q : AltParams) : Prop where
  holds : HoldsFor cls alts iref sref p q
  shapes : p.shapes = none ↔ cls = .mnl ∨ cls = .cloglog
  intercepts : p.intercepts = none ↔ cls = .mnl ∨ iref = .none ∨ alts.length = 1
  index : p.index.length = k
  all : x = p.shapes.getD [] ++ (p.intercepts.getD [] ++ p.index)

/-- The parameters of the alternatives, measured from the intercept of the alternative `b` and, in the asymmetric model,
from the shape of the alternative `c`. -/
noncomputable def AltParams.measuredFrom (cls : ModelType) (q : AltParams) (b c : ℝ) : AltParams :=
  ⟨fun a => q.icpt a - q.icpt b, fun a => if cls = .asym then q.shape a - q.shape c else q.shape a⟩

/-- At the estimates in `t`, no utility of a row reaches 700 in absolute value, also not if it is measured from the
outside intercept of any alternative. -/
def FarFromClipping (m : ChoiceModel ℝ) (df : Frame ℝ) (alts : List ℝ) (cols : List (ColDesc ℝ)) (t : FitAttrs) : Prop :=
  ∀ x p q, t.params.map Series.values = some x →
    EstimatesAre m.cls alts m.args.interceptRefPos m.args.shapeRefPos cols.length x p q → ∀ r, ∀ b ∈ alts,
    |rowUtility m.cls alts q (df.val m.args.altIdCol r) (callersIndex df m.args.altIdCol cols p.index r) - q.icpt b| < 700

/-- Two fits report the same log-likelihood and rho-squared. -/
def FitEquallyWell (t t' : FitAttrs) : Prop :=
  ∃ L ρ, t.llf = some L ∧ t'.llf = some L ∧ t.logLik = some L ∧ t'.logLik = some L ∧ t.rhoSq = some ρ ∧ t'.rhoSq = some ρ

end Pylogit.Spec
