import Verif.Model.WholeFitNested
import Verif.Model.WholeFitMixed
import Verif.Model.WholeBoot
import Verif.Model.Boot

/-!
# Model of `create_estimation_obj` and of the gradient norms of replicates, from the model object on

`Verif.Model.Boot` has the gradient norms for a given estimation object; here the object is made from the model object,
as construct_estimator.py does it: the class of the estimator is looked up by the displayed model type.
-/

open Matrix

namespace Pylogit

noncomputable section

/-- `display_name_to_model_type`, construct_estimator.py:37: the dictionary of displayed names, turned round. -/
def displayNameToModelType : List (String × String) := displayNames.map fun kv => (kv.2, kv.1)

/-- `model_type_to_resources`, construct_estimator.py:41-52: the estimator (named by the class of models whose estimator
it is) and the function that splits a parameter vector (likewise) of an abbreviated model type. -/
def modelTypeToResources : List (String × ModelType × ModelType) :=
  [("MNL", .mnl, .mnl), ("Asym", .asym, .asym), ("Cloglog", .cloglog, .cloglog), ("Scobit", .scobit, .scobit),
    ("Uneven", .uneven, .uneven), ("Nested Logit", .nested, .nested), ("Mixed Logit", .mixed, .mixed)]

/-- The look-ups of `create_estimation_obj`, construct_estimator.py:103-109. -/
def resourcesOf (displayName : String) : Except Err (ModelType × ModelType) :=
  match displayNameToModelType.lookup displayName with
  | none => .error .keyError
  | some key =>
    match modelTypeToResources.lookup key with
    | none => .error .keyError
    | some r => .ok r

/-- `create_estimation_obj`, construct_estimator.py:55-120, without weights, followed by `set_derivatives` where the
object has it (bootstrap.py:643-644).  The mappings are made first (line 99; of the checks in them only that of the nests
can fail for a model that was constructed), then the class is looked up, then its constructor checks its arguments
(estimation.py:110-115) and, for the mixed logit model, reads the attribute `design_3d` of the model (mixed_logit.py:238),
which `fit_mle` sets (mixed_logit.py:585); `design3d` is that attribute.  Simplifications: a splitting function of another
class than the estimator's raises `TypeError` (no entry of the dictionary has one); as in `mnlFit` for a table without
rows; as in `pointNested` for nest dictionaries the constructor rejects. -/
def estimationObject (m : ChoiceModel ℝ) (design3d : Option (DrawnDesign m.data m.design.length))
    (ridge : Option (PyVal ℝ)) : Except Err LogitObject := do
  let res ← resourcesOf m.displayName
  if res.1 ≠ res.2 then .error .typeError
  let checks := estimationChecks ridge (m.data.colList m.args.obsIdCol) .none
  let lam : Option ℝ := match ridge with
    | some (.num x) => some x
    | _ => none
  if h : 0 < m.data.numRows then
    match res.1 with
    | .nested =>
      match m.args.nestSpec.bind fun l => l.mapM decodeNest with
      | none => .error .typeError
      | some ns => do
        let rtn ← m.data.rowsToNests m.args.altIdCol ns
        checks
        .ok (nestedObject m h rtn lam)
    | .mixed => do
      checks
      match design3d with
      | none => .error .attributeError
      | some X => .ok (mixedObject m h X lam)
    | cls => do
      checks
      logitObject { m with cls := cls } h lam
  else .error .valueError

/-- `Boot.calc_gradient_norm_for_replicates`, bootstrap.py:596-664, without weights, for the model object and the rows of
the two sets of replicates.  Simplification: a row of the wrong length raises `ValueError`. -/
def modelGradientNorms (m : ChoiceModel ℝ) (design3d : Option (DrawnDesign m.data m.design.length)) (kwarg : String)
    (ridge : Option (PyVal ℝ)) (boot jack : Option (List (List ℝ))) : Except Err (List ℝ) := do
  ensureReplicatesKwarg kwarg
  let obj ← estimationObject m design3d ridge
  let reps ← attrValues (if kwarg = "bootstrap" then boot else jack)
  reps.mapM fun x =>
    if x.length ≠ obj.n then .error .valueError
    else .ok (euclideanNorm ((obj.est none).gradient fun k => x.getD k 0))

end

end Pylogit
