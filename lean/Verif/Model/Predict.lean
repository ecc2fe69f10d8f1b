import Verif.Model.Construct
import Verif.Model.Transforms
import Verif.Model.Nested

/-!
# Model of `MNDC_Model.predict`, base_multinomial_cm_v2.py:1708-1972

Tables and ids are real-valued.  Parameter arrays are one-dimensional here (lists); see
`Verif.Model.ReplicateLikes` for two-dimensional ones.  Unlike in `Verif.Model.Transforms`, where the sizes
of all arrays agree by their types, here every array comes with its own length and the size errors of the
code are part of the model.  The mixed logit branch is `mixedPredict` in `Verif.Model.Mixed`.
-/

open Matrix

namespace Pylogit

/-- The parameter arrays used by a prediction: index coefficients, outside intercepts, shapes and nests
(the order of `param_list`).  The rows of the arrays have type `W`: numbers for one-dimensional arrays. -/
structure ParamArraysOf (W : Type) where
  index : List W
  intercepts : Option (List W)
  shapes : Option (List W)
  nests : Option (List W)

/-- One-dimensional parameter arrays. -/
abbrev ParamArrays := ParamArraysOf ℝ

/-- `check_num_rows_of_parameter_array`, base_multinomial_cm_v2.py:386-407, for an array that may be
`None`. -/
def checkNumRows {W : Type} (arr : Option (List W)) (n : ℕ) : Except Err Unit :=
  match arr with
  | none => .ok ()
  | some x => if x.length ≠ n then .error .valueError else .ok ()

/-- The expected number of rows, base_multinomial_cm_v2.py:1748-1771: 0 without names, else one per name. -/
def nameCount {α : Type} : Option (List α) → ℕ
  | none => 0
  | some l => l.length

/-- `check_param_list_validity`, base_multinomial_cm_v2.py:1708-1777, for a list of four arrays
with the same number of dimensions and columns, the first of which is not `None` (that is what the type
says; the type and dimension checks of lines 1733-1744 pass). -/
def checkParamListValidity {V W : Type} (m : ChoiceModel V) (p : ParamArraysOf W) : Except Err Unit := do
  checkNumRows (some p.index) m.indVarNames.length
  checkNumRows p.intercepts (nameCount m.args.interceptNames)
  checkNumRows p.shapes (nameCount m.args.shapeNames)
  checkNumRows p.nests (nameCount m.args.nestSpec)

/-- `idxs = range(m); idxs.remove(ref)`: `ValueError` when `ref` is not in the list. -/
def removeRef (m : ℕ) (ref : PyRef) : Except Err (List ℕ) :=
  match ref with
  | .int z =>
    if 0 ≤ z ∧ z < (m : ℤ) then .ok ((List.range m).filter fun i => (i : ℤ) ≠ z)
    else .error .valueError
  | _ => .error .valueError

noncomputable section

variable {R : Type}

/-- `a = np.zeros(n); a[idxs] = vals` for a one-dimensional array `vals` (and `a[idxs, :] = vals` for a
two-dimensional one, given by its rows): `IndexError` for an index out of bounds; the lengths must agree, or
`vals` has one element, which is repeated. -/
def scatter {W : Type} [Zero W] (n : ℕ) (idxs : List ℕ) (vals : List W) : Except Err (List W) :=
  if ∃ i ∈ idxs, n ≤ i then .error .indexError
  else if vals.length = idxs.length then
    .ok ((List.range n).map fun j => if j ∈ idxs then vals.getD (idxs.idxOf j) 0 else 0)
  else
    match vals with
    | [x] => .ok ((List.range n).map fun j => if j ∈ idxs then x else 0)
    | _ => .error .valueError

/-- `mapping.dot(array)` for a one-dimensional array: `ValueError` unless there is one element per
column. -/
def mappingDot {n : ℕ} (mapping : Matrix R (Fin n) ℝ) (x : List ℝ) : Except Err (R → ℝ) :=
  if x.length ≠ n then .error .valueError else .ok (mapping *ᵥ fun j => x.getD j 0)

/-- The outside intercept of each row: asym_logit.py:315-337, clog_log.py:180-202,
uneven_logit.py:210-232 (`range(rows_to_alts.shape[1])`) and scobit.py:156-181
(`range(intercept_params.shape[0] + 1)`).  A reference position that is neither `None` nor an `int` is not
in the list. -/
def interceptTerm (cls : ModelType) {n : ℕ} (rta : Matrix R (Fin n) ℝ) (ref : PyRef)
    (ip : Option (List ℝ)) : Except Err (R → ℝ) :=
  match ref, ip with
  | .none, _ => .ok fun _ => 0
  | _, none => .ok fun _ => 0
  | ref, some a => do
    let idxs ← removeRef (if cls = .scobit then a.length + 1 else n) ref
    let all ← scatter n idxs a
    mappingDot rta all

/-- `_convert_eta_to_c`, asym_logit.py:144-181, on an array of any length. -/
def etaToC (ref : PyRef) (eta : List ℝ) : Except Err (List ℝ) :=
  match ref with
  | .int z => do
    let idxs ← removeRef (eta.length + 1) ref
    let expEta := eta.map fun x => if Real.exp x = 0 then minCompValue else Real.exp x
    let denom := expEta.sum + 1
    let c ← scatter (eta.length + 1) idxs (expEta.map fun x => x / denom)
    .ok (c.set z.toNat (1 / denom))
  | _ => .error .valueError

/-- The shape of each row: asym_logit.py:279-286; scobit.py:184-188 and uneven_logit.py:161-167.  Arrays
of shapes that are `None` fail in `np.exp`. -/
def shapeTerm (cls : ModelType) {n : ℕ} (rta : Matrix R (Fin n) ℝ) (ref : PyRef)
    (shapes : Option (List ℝ)) : Except Err (R → ℝ) :=
  match shapes with
  | none => .error .typeError
  | some s =>
    if cls = .asym then do
      let c ← etaToC ref s
      mappingDot rta c
    else mappingDot rta (s.map Real.exp)

/-- `self.utility_transform` of the logit-type models (conditional_logit.py:84-100, clog_log.py:116-208,
scobit.py:111-213, uneven_logit.py:118-238, asym_logit.py:228-347) with the reference positions the
constructors bind, for arrays of any length.  The nested and mixed logit models do not call it here. -/
def predictTransform (cls : ModelType) {n : ℕ} (rta : Matrix R (Fin n) ℝ) (icptRef shapeRef : PyRef)
    (p : ParamArrays) (v : R → ℝ) : Except Err (R → ℝ) :=
  match cls with
  | .cloglog => do
    let a ← interceptTerm .cloglog rta icptRef p.intercepts
    .ok fun r => clogH (v r) + a r
  | .scobit => do
    let a ← interceptTerm .scobit rta icptRef p.intercepts
    let c ← shapeTerm .scobit rta shapeRef p.shapes
    .ok fun r => a r + scobitH (c r) (v r)
  | .uneven => do
    let c ← shapeTerm .uneven rta shapeRef p.shapes
    let a ← interceptTerm .uneven rta icptRef p.intercepts
    .ok fun r => unevenH (c r) (v r) + a r
  | .asym => do
    let c ← shapeTerm .asym rta shapeRef p.shapes
    let a ← interceptTerm .asym rta icptRef p.intercepts
    .ok fun r => asymH n (c r) (v r) + a r
  | _ => .ok v

/-- `design.dot(beta)`, choice_calcs.py:133, for a design with the given columns: `ValueError` unless there
is one coefficient per column. -/
def designDot (cols : List (R → ℝ)) (beta : List ℝ) : Except Err (R → ℝ) :=
  if cols.length ≠ beta.length then .error .valueError
  else .ok fun r => ((cols.zip beta).map fun p => p.1 r * p.2).sum

/-- The `rows_to_obs` mapping of a table, with a row per table row. -/
def Frame.rowsToObs (df : Frame ℝ) (col : String) :
    Matrix (Fin df.numRows) (Fin (originalOrderUniqueIds (df.colList col)).length) ℝ :=
  (Pylogit.rowsToObs (df.colList col)).submatrix (Fin.cast (by simp [Frame.colList])) id

/-- The `rows_to_alts` mapping of a table, with a row per table row. -/
def Frame.rowsToAlts (df : Frame ℝ) (col : String) :
    Matrix (Fin df.numRows) (Fin (npSort (npUnique (df.colList col))).length) ℝ :=
  (Pylogit.rowsToAlts (df.colList col)).submatrix (Fin.cast (by simp [Frame.colList])) id

/-- The tail of `calc_probabilities`, choice_calcs.py:143-189, on transformed utilities `h`. -/
def probParts {O : Type} [Fintype R] [Fintype O] (rowsToObs : Matrix R O ℝ) (h : R → ℝ)
    (choice : Option (R → ℝ)) (returnLong : Bool) : ProbResult R O Unit :=
  match choice, returnLong with
  | some y, true => .both
      (fun o _ => chosenProbs rowsToObs (Matrix.of fun r o => rowsToObs r o * y r) h o)
      (fun r _ => longProbs rowsToObs h r)
  | none, _ => .long fun r _ => longProbs rowsToObs h r
  | some y, false => .chosen
      fun o _ => chosenProbs rowsToObs (Matrix.of fun r o => rowsToObs r o * y r) h o

/-- The checks at the start of `predict`, base_multinomial_cm_v2.py:1857-1869. -/
def predictChecks {W : Type} (m : ChoiceModel ℝ) (df : Frame ℝ) (paramList : Option (ParamArraysOf W))
    (returnLong : Bool) (choiceCol : Option String) : Except Err Unit := do
  ensureColumnsInDataframe [m.args.altIdCol] df
  ensureColumnsInDataframe [m.args.obsIdCol] df
  match m.args.mixingIdCol with
  | none => .ok ()
  | some c => ensureColumnsInDataframe [c] df
  match paramList with
  | none => .ok ()
  | some p => checkParamListValidity m p
  if ¬ returnLong ∧ choiceCol = none then .error .valueError else .ok ()

/-- `long_form[choice_col].values`, choice_tools.py:920-928: `KeyError` when there is no such column. -/
def choiceArray (df : Frame ℝ) (choiceCol : Option String) :
    Except Err (Option (Fin df.numRows → ℝ)) :=
  match choiceCol with
  | none => .ok none
  | some c => if c ∈ df.columns then .ok (some (df.val c)) else .error .keyError

/-- `predict` for the logit-type models on a table that has the intercept column if it needs one,
base_multinomial_cm_v2.py:1857-1908 and 1962-1972.  `stored` are the parameters of the fitted model. -/
def predictFrame (env : Env ℝ) (m : ChoiceModel ℝ) (stored : ParamArrays) (df : Frame ℝ)
    (paramList : Option ParamArrays) (returnLong : Bool) (choiceCol : Option String) :
    Except Err (ProbResult (Fin df.numRows)
      (Fin (originalOrderUniqueIds (df.colList m.args.obsIdCol)).length) Unit) := do
  predictChecks m df paramList returnLong choiceCol
  let design ← createDesignMatrix env.fmt env.fmtList df m.args.specification m.args.altIdCol m.args.names
  let choice ← choiceArray df choiceCol
  let p := paramList.getD stored
  let v ← designDot design.1 p.index
  let h ← predictTransform m.cls (df.rowsToAlts m.args.altIdCol) m.args.interceptRefPos
    m.args.shapeRefPos p v
  .ok (probParts (df.rowsToObs m.args.obsIdCol) h choice returnLong)

/-- `predict` for the logit-type models, base_multinomial_cm_v2.py:1779-1972 (the data is a table; reading
a csv file is not modelled). -/
def predict (env : Env ℝ) (m : ChoiceModel ℝ) (stored : ParamArrays) (df : Frame ℝ)
    (paramList : Option ParamArrays) (returnLong : Bool) (choiceCol : Option String) :=
  predictFrame env m stored (addIntercept m.args.specification df) paramList returnLong choiceCol

/-- The `rows_to_nests` mapping, choice_tools.py:930-948, of the rows of a table: `KeyError` when an
alternative is in no nest. -/
def Frame.rowsToNests (df : Frame ℝ) (col : String) (nestSpec : List (String × List ℝ)) :
    Except Err (Matrix (Fin df.numRows) (Fin nestSpec.length) ℝ) := do
  let ids ← (df.colList col).mapM (nestIdOf nestSpec)
  .ok (Matrix.of fun r j => if ids[r.val]? = some (j.val + 1) then 1 else 0)

/-- `predict` for the nested logit model, base_multinomial_cm_v2.py:1912-1928, given the nests as names and
lists of alternatives.  Arrays of the wrong length make the sparse products fail. -/
def predictNestedFrame (env : Env ℝ) (m : ChoiceModel ℝ) (nestSpec : List (String × List ℝ))
    (stored : ParamArrays) (df : Frame ℝ) (paramList : Option ParamArrays) (returnLong : Bool)
    (choiceCol : Option String) :
    Except Err (NestedResult (Fin df.numRows)
      (Fin (originalOrderUniqueIds (df.colList m.args.obsIdCol)).length) (Fin nestSpec.length)) := do
  predictChecks m df paramList returnLong choiceCol
  let design ← createDesignMatrix env.fmt env.fmtList df m.args.specification m.args.altIdCol m.args.names
  let choice ← choiceArray df choiceCol
  let rtn ← df.rowsToNests m.args.altIdCol nestSpec
  let p := paramList.getD stored
  match p.nests with
  | none => .error .typeError
  | some nests =>
    if nests.length ≠ nestSpec.length ∨ design.1.length ≠ p.index.length then .error .valueError
    else
      let rto := df.rowsToObs m.args.obsIdCol
      calcNestedProbs (naturalizeNestCoefs fun j : Fin nestSpec.length => nests.getD j 0)
        (fun k : Fin design.1.length => p.index.getD k 0)
        (Matrix.of fun r (k : Fin design.1.length) => design.1[k] r) rto rtn
        (choice.map fun y => Matrix.of fun r o => rto r o * y r)
        (if returnLong then "long_probs" else "chosen_probs")

end

end Pylogit
